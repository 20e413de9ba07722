{"id": "C01", "title": "Linear sample output length", "statement": "A linear sample with kernel size k, stride s, dilation rate r (all >= 1) and paddings (l, q), applied to an input of length n, returns m exactly when m >= 1 and (m-1)*s + (k-1)*r + 1 = l + n + q; when no such m exists it throws std::invalid_argument. No other outcome occurs while the padded length and the patch size fit the dimension type.", "quantifier": "all k, s, r, l, q, n and every integer dimension type (signed or unsigned, any width >= 32) such that padded length and patch size are representable", "why_tests_cant": "the parameter space is five-dimensional and unbounded; tests enumerate k,s,r,m <= 3", "anchors": ["include/ttl/nn/bits/traits/filter.hpp: linear_filter_trait::operator()", "include/ttl/nn/bits/traits/linear_sample.hpp: linear_sample_trait::operator()", "include/ttl/nn/bits/traits/padding.hpp: linear_padding_trait::operator()"]}
{"id": "C02", "title": "Linear sample taps stay inside the padded input", "statement": "If a sample maps n to m then for every output position j < m and tap k' < k the sampled index j*s+k'*r is computed exactly, is smaller than the padded length, equals 0 for (0,0) and padded-1 for the last pair; `inside` is true exactly for indices that fall on a real element, and `unpad` then returns that element's index, which is < n.", "quantifier": "all valid samples, all n, all output positions and taps", "why_tests_cant": "an out-of-range tap is an out-of-bounds read; only a universally quantified bound excludes it", "anchors": ["include/ttl/nn/bits/traits/filter.hpp: operator()(j,k)", "include/ttl/nn/bits/traits/padding.hpp: inside, unpad", "include/ttl/nn/bits/traits/linear_sample.hpp"]}
{"id": "C03", "title": "Degenerate filters are rejected", "statement": "Constructing a filter throws std::invalid_argument exactly when kernel size, stride or rate is smaller than 1, and otherwise keeps the three values unchanged.", "quantifier": "all triples of values of the dimension type", "why_tests_cant": "ranges over all integer triples", "anchors": ["include/ttl/nn/bits/traits/filter.hpp: linear_filter_trait::linear_filter_trait"]}
{"id": "C04", "title": "Valid padding is the least sufficient padding", "statement": "valid_padding(k,s,r,n) chooses the smallest total padding p such that s divides n + p - ((k-1)*r+1), has p < s, splits it as floor(p/2) on the left and the rest on the right, and when n is at least the patch size the sample built with it accepts n and yields ceil((n-patch)/s)+1.", "quantifier": "all k,s,r >= 1 and n (no overflow)", "why_tests_cant": "minimality is a statement about all smaller paddings; four-parameter arithmetic", "anchors": ["include/ttl/nn/bits/traits/linear_sample.hpp: valid_padding, even_padding, patch_size"]}
{"id": "C05", "title": "Same padding keeps the length", "statement": "same_padding(k,s,r,n) throws std::runtime_error exactly when the patch size is smaller than s + n mod s; otherwise the sample built with it maps n to floor(n/s) whenever n >= s - in particular to n for stride 1 - and rejects n < s. (The usual convention ceil(n/s) is not what the code computes when s does not divide n.)", "quantifier": "all k,s,r >= 1 and n (no overflow)", "why_tests_cant": "four-parameter arithmetic; tests check stride 1 and 2 on divisible inputs only", "anchors": ["include/ttl/nn/bits/traits/linear_sample.hpp: same_padding"]}
{"id": "C06", "title": "Shape inference never accepts a wrapped size", "statement": "A sample accepts an input only if the true (unbounded) padded length is at least the true patch size and the output length is the true one; dimension arithmetic that does not fit the type is never silently accepted.", "quantifier": "all k,s,r,l,q,n including those overflowing the dimension type", "why_tests_cant": "the failing inputs are near 2^32, no test uses them", "anchors": ["include/ttl/nn/bits/traits/filter.hpp", "include/ttl/nn/bits/traits/padding.hpp"]}
{"id": "C07", "title": "Multi-dimensional samples act per axis", "statement": "A multi-dimensional sample maps a shape to the shape of per-axis sample results, reports the kernel shape it was built from, throws if any axis throws, and its shorter constructors mean stride 1, rate 1 and padding 0.", "quantifier": "all ranks, all kernel/stride/rate/padding vectors, all input shapes", "why_tests_cant": "any rank and any per-axis parameters", "anchors": ["include/ttl/nn/bits/traits/multi_linear_sample.hpp: multi_linear_sample_trait"]}
{"id": "C08", "title": "Layout position tables are consistent", "statement": "For every image order the batch, height, width and channel positions recover exactly what batched_image_shape puts into a shape, and likewise for filter orders and conv_filter_shape; the two orders differ by the transpose permutation.", "quantifier": "all n,h,w,c / r,s,c,d and all supported orders", "why_tests_cant": "holds for all dimension values", "anchors": ["include/ttl/nn/bits/traits/trait_algo.hpp: batch_size, channel_size, image_shape, batched_image_shape, filter_shape, filter_in_channel_size, filter_out_channel_size, conv_filter_shape"]}
{"id": "C09", "title": "Convolution shape inference", "statement": "conv(x_shape, y_shape) returns the shape with x's batch size, the filter's output channels and per-axis sampled height and width, in the image order; it throws std::runtime_error when channels disagree and std::invalid_argument when an axis cannot be sampled.", "quantifier": "all shapes, strides, rates, paddings, both layouts", "why_tests_cant": "unbounded parameter space", "anchors": ["include/ttl/nn/bits/ops/conv2d_trait.hpp: conv_trait::infer, linear_conv_trait", "include/ttl/nn/bits/ops/conv2d.hpp: conv::operator()"]}
{"id": "C10", "title": "Pooling shape inference", "statement": "pool(x_shape) keeps batch and channel dimensions and samples height and width; omitted stride means stride = kernel size, omitted padding means 0, omitted kernel means 2x2.", "quantifier": "all shapes, kernels, strides, paddings, both 4-d layouts", "why_tests_cant": "unbounded parameter space", "anchors": ["include/ttl/nn/bits/ops/pool.hpp: pooled_shape", "include/ttl/nn/bits/ops/pool2d_trait.hpp: pool_trait"]}
{"id": "C11", "title": "col2im shape inverts im2col shape", "statement": "Whenever im2col accepts an image shape, col2im with the same parameters maps the column shape back to that image shape (1-d and 2-d), and col2im rejects a column shape whose kernel dimensions differ from its own.", "quantifier": "all parameters and shapes accepted by im2col (no overflow)", "why_tests_cant": "round trip over unbounded parameters, including modular subtraction of padding", "anchors": ["include/ttl/nn/bits/ops/col2im.hpp: origin_size", "include/ttl/nn/bits/ops/col2im1d.hpp", "include/ttl/nn/bits/ops/im2col.hpp", "include/ttl/nn/bits/ops/im2col1d.hpp"]}
{"id": "C12", "title": "Gradient shape inference", "statement": "The i-th gradient of an operator maps (gy, y, xs...) to the shape of xs[i] and throws std::runtime_error unless y equals the operator's inferred shape and gy equals y.", "quantifier": "all operators, arities and shapes", "why_tests_cant": "quantifies over every operator and shape tuple", "anchors": ["include/ttl/nn/bits/ops/std_function.hpp: basic_gradient_function", "include/ttl/nn/bits/ops/shape_algo.hpp: gradient_shape, check_shape"]}
{"id": "C13", "title": "Elementwise and reduce shape functions", "statement": "Unary maps keep shapes; binary maps and binary reductions throw std::invalid_argument exactly when the shapes differ; reductions drop the last dimension, vectorising appends k.", "quantifier": "all ranks and shapes", "why_tests_cant": "any rank", "anchors": ["include/ttl/nn/bits/ops/std_function.hpp"]}
{"id": "C14", "title": "Concat shape", "statement": "Channel concatenation of shapes sums the channel dimension and requires (std::runtime_error otherwise) every other dimension to agree, for any number of operands.", "quantifier": "any number of operands, any rank, any axis", "why_tests_cant": "variadic in the number of operands", "anchors": ["include/ttl/nn/bits/ops/shape_algo.hpp: concat2shapes, concat_shape", "include/ttl/nn/bits/ops/concat.hpp"]}
{"id": "C15", "title": "Flattening preserves element order and count", "statement": "as_matrix and copy_flatten keep the number of elements and the flat order, so element (i0,..,ip-1,ip,..) of the tensor is element (row-major(i0..ip-1), row-major(ip..)) of the matrix; the gradient of copy_flatten writes gy back unchanged.", "quantifier": "all ranks, splits and shapes", "why_tests_cant": "any rank", "anchors": ["include/ttl/nn/bits/ops/reshape.hpp", "include/ttl/nn/bits/ops/gradients/reshape.hpp"]}
{"id": "C16", "title": "Built-in engine computes matrix products exactly in order", "statement": "mm, mmt, mtm, mv and vm of the built-in engine write, for every output element, the sum of products accumulated from 0 in increasing index order (so the result is determined even for non-associative floating point), independent of the previous contents of the output, and never access memory outside the operands.", "quantifier": "all matrix sizes, all element types and arithmetic (no algebraic laws assumed), all previous output contents", "why_tests_cant": "all sizes and contents; bounds safety", "anchors": ["include/ttl/nn/bits/engines/plain_impl.hpp"]}
{"id": "C17", "title": "Engine shape contracts", "statement": "Each built-in engine routine throws std::runtime_error exactly when the operand shapes do not fit, and otherwise returns normally.", "quantifier": "all shapes", "why_tests_cant": "all shapes", "anchors": ["include/ttl/nn/bits/engines/plain_impl.hpp"]}
{"id": "C18", "title": "Transposed products agree bit for bit", "statement": "mmt(a, b) = mm(a, transpose b), mtm(a, b) = mm(transpose a, b), and mv/vm are the one-column/one-row cases, bit for bit for any element arithmetic.", "quantifier": "all sizes and contents, arbitrary arithmetic", "why_tests_cant": "bit-exactness over all inputs", "anchors": ["include/ttl/nn/bits/engines/plain_impl.hpp"]}
{"id": "C19", "title": "Both BLAS engines give the same matrices", "statement": "The cblas engine passes dimensions, leading dimensions and transposition flags such that, with row-major gemm/gemv as specified by netlib, it computes the same mm, mmt, mtm, mv, vm as the built-in engine for all conforming shapes.", "quantifier": "all conforming shapes and contents, any commutative semiring", "why_tests_cant": "wrong leading dimensions or K often coincide on square test matrices", "anchors": ["include/ttl/nn/bits/engines/cblas_impl.hpp", "include/ttl/nn/bits/engines/plain_impl.hpp"]}
{"id": "C20", "title": "Matmul is associative and linear", "statement": "matmul(matmul(x,y),z) = matmul(x,matmul(y,z)) and matmul distributes over add in both arguments.", "quantifier": "all conforming shapes and contents over a semiring", "why_tests_cant": "algebraic law over all inputs", "anchors": ["include/ttl/nn/bits/ops/blas.hpp: matmul", "include/ttl/nn/bits/ops/elementary.hpp: add"]}
{"id": "C21", "title": "Elementwise operators are elementwise, also in place", "statement": "add, sub, mul, relu, identity, axpy and pointwise write exactly f(x[i], y[i]) to every output element, keep the rest of memory unchanged, and give the same result when the output aliases an input (identity excepted: copying a range onto itself is undefined).", "quantifier": "all sizes, contents, both aliased and separate outputs", "why_tests_cant": "aliasing correctness depends on the order of reads and writes at every index", "anchors": ["include/ttl/nn/bits/kernels/cpu/elementary.hpp", "include/ttl/nn/bits/kernels/cpu/blas.hpp: axpy", "include/ttl/nn/bits/kernels/cpu/activation.hpp", "include/ttl/nn/bits/ops/elementary.hpp"]}
{"id": "C22", "title": "Bias is applied along the channel", "statement": "apply_bias (add_bias, mul_bias) combines every element with the bias entry of its own channel, for hw, nhwc and nchw orders, also in place.", "quantifier": "all shapes, contents, functions f", "why_tests_cant": "generic code uses coord<p>, nhwc uses a matrix reshape; agreement needs all indices", "anchors": ["include/ttl/nn/bits/kernels/cpu/bias.hpp", "include/ttl/nn/bits/ops/bias.hpp"]}
{"id": "C23", "title": "Bias commutes with layout change", "statement": "Applying bias in nhwc and transposing to nchw equals transposing first and applying bias in nchw.", "quantifier": "all shapes and contents", "why_tests_cant": "two different loop nests must agree everywhere", "anchors": ["include/ttl/nn/bits/kernels/cpu/bias.hpp", "include/ttl/nn/bits/ops/transpose.hpp"]}
{"id": "C24", "title": "Layout transposes are mutually inverse", "statement": "to_channels_last after to_channels_first returns the original tensor and vice versa, and element (n,h,w,c) moves to (n,c,h,w).", "quantifier": "all shapes and contents", "why_tests_cant": "all indices", "anchors": ["include/ttl/nn/bits/ops/transpose.hpp"]}
{"id": "C25", "title": "Channel concatenation keeps every element", "statement": "concat_channel4d writes x's channels, then y's (then z's) for every position; each operand can be read back from its channel range, nothing else is written.", "quantifier": "all shapes and contents, both kernels", "why_tests_cant": "all indices and split points", "anchors": ["include/ttl/nn/bits/kernels/cpu/concat.hpp", "include/ttl/nn/bits/ops/concat.hpp"]}
{"id": "C26", "title": "im2col extracts zero-padded patches", "statement": "im2col in hwrs, rshw and hwrsc orders writes for every output position and tap the image element at i'*s+u*r-pad or 0 when that lies in the padding, for every parameter choice accepted by shape inference, without out-of-bounds access.", "quantifier": "all images, kernel sizes, strides, rates, asymmetric paddings", "why_tests_cant": "all indices of a five-dimensional loop nest", "anchors": ["include/ttl/nn/bits/kernels/cpu/im2col.hpp: im2col_2d", "include/ttl/nn/bits/ops/im2col.hpp"]}
{"id": "C27", "title": "Index-map im2col equals direct im2col", "statement": "The batched im2col that goes through a precomputed signed index map writes exactly what the direct im2col writes for every image of the batch, as long as one image has at most 2^31 elements.", "quantifier": "all batches, shapes, parameters", "why_tests_cant": "needs agreement at every flat index; the signed 32-bit limit is never reached by tests", "anchors": ["include/ttl/nn/bits/kernels/cpu/im2col.hpp: im2col_idx_map, im2col_2d<nhwc,nhwrsc>"]}
{"id": "C28", "title": "col2im sums contributions", "statement": "col2im overwrites its output with, for each image element, the sum of all column entries whose tap falls on that element (0 if none), dropping entries that fall on padding.", "quantifier": "all shapes, parameters, contents", "why_tests_cant": "accumulation over overlapping windows", "anchors": ["include/ttl/nn/bits/kernels/cpu/col2im.hpp", "include/ttl/nn/bits/ops/col2im.hpp", "include/ttl/nn/bits/ops/impl/col2im1d.hpp"]}
{"id": "C29", "title": "col2im is the adjoint of im2col", "statement": "For every image x and column tensor y: <im2col x, y> = <x, col2im y> (1-d and 2-d).", "quantifier": "all shapes, parameters, contents over a commutative semiring", "why_tests_cant": "bilinear identity over all inputs", "anchors": ["include/ttl/nn/bits/kernels/cpu/im2col.hpp", "include/ttl/nn/bits/kernels/cpu/col2im.hpp", "include/ttl/nn/bits/ops/impl/im2col1d.hpp", "include/ttl/nn/bits/ops/impl/col2im1d.hpp"]}
{"id": "C30", "title": "col2im after im2col multiplies by the overlap count", "statement": "col2im(im2col x)[i] = (number of (position, tap) pairs that sample i) * x[i].", "quantifier": "all shapes, parameters, contents", "why_tests_cant": "counting argument over all indices", "anchors": ["include/ttl/nn/bits/kernels/cpu/im2col.hpp", "include/ttl/nn/bits/kernels/cpu/col2im.hpp"]}
{"id": "C31", "title": "nhwc/rscd convolution is the textbook convolution", "statement": "conv<nhwc,rscd> writes z[n,i,j,d] = sum over u,v,c of xpad[n, i*sh+u*rh, j*sw+v*rw, c] * y[u,v,c,d] for every accepted shape with at most 2^31 elements per image, stride, rate and asymmetric padding, overwriting previous contents and without out-of-bounds access.", "quantifier": "all batch sizes, images, filters, strides, rates, paddings", "why_tests_cant": "goes through an index map, a reshape and a matrix product; equality needed at every index", "anchors": ["include/ttl/nn/bits/kernels/cpu/conv2d.hpp", "include/ttl/nn/bits/ops/conv2d.hpp"]}
{"id": "C32", "title": "nchw/dcrs convolution is the textbook convolution", "statement": "conv<nchw,dcrs> writes z[n,d,i,j] = sum over c,u,v of xpad[n,c,i*sh+u*rh,j*sw+v*rw] * y[d,c,u,v], same conditions.", "quantifier": "all batch sizes, images, filters, strides, rates, paddings", "why_tests_cant": "goes through batched im2col and a matrix product per image", "anchors": ["include/ttl/nn/bits/kernels/cpu/conv2d.hpp", "include/ttl/nn/bits/ops/combinators.hpp", "include/ttl/nn/bits/ops/conv2d.hpp"]}
{"id": "C33", "title": "Both convolution layouts agree", "statement": "Transposing the nhwc/rscd convolution to nchw equals the nchw/dcrs convolution of the transposed image with the permuted filter.", "quantifier": "all inputs over a commutative semiring with at most 2^31 elements per image", "why_tests_cant": "two unrelated implementations must agree on every input", "anchors": ["include/ttl/nn/bits/kernels/cpu/conv2d.hpp", "include/ttl/nn/bits/ops/transpose.hpp"]}
{"id": "C34", "title": "Convolution is bilinear and batch-separable", "statement": "Convolution is linear in the image and in the filter, and output image n depends only on input image n and the filter.", "quantifier": "all inputs over a commutative semiring with at most 2^31 elements per image", "why_tests_cant": "algebraic laws over all inputs", "anchors": ["include/ttl/nn/bits/kernels/cpu/conv2d.hpp"]}
{"id": "C35", "title": "1-d convolution", "statement": "conv1d writes z[j] = sum over k of y[k]*xpad[j*s+k*r], which equals the matrix-vector product of im2col1d(x) with y, for every accepted parameter choice, in the accumulation order of the code.", "quantifier": "all lengths, kernels, strides, rates, paddings (including asymmetric)", "why_tests_cant": "unbounded parameters", "anchors": ["include/ttl/nn/bits/ops/impl/conv1d.hpp", "include/ttl/nn/bits/ops/impl/im2col1d.hpp", "include/ttl/nn/bits/ops/conv1d.hpp"]}
{"id": "C36", "title": "Max pooling returns the window maximum", "statement": "2-d max pooling (hw and hwc) writes for each window the greatest of the image elements inside it (padding ignored): the value is attained and bounds all of them; a window with no image element yields the type's lowest value.", "quantifier": "all shapes, kernels, strides, paddings, contents of a linearly ordered type", "why_tests_cant": "all windows", "anchors": ["include/ttl/nn/bits/kernels/cpu/pool.hpp: max_accumulator, pool"]}
{"id": "C37", "title": "Mean pooling returns the window mean", "statement": "2-d mean pooling writes for each window the sum of the image elements inside it divided by their number (padding excluded from both).", "quantifier": "all shapes, kernels, strides, paddings; element types where sum/count is exact division", "why_tests_cant": "all windows", "anchors": ["include/ttl/nn/bits/kernels/cpu/pool.hpp: mean_accumulator, pool"]}
{"id": "C38", "title": "Integer mean pooling rounds the true mean toward zero", "statement": "For 32-bit int elements mean pooling yields the truncated true mean of the window.", "quantifier": "all int contents (no overflow of the sum)", "why_tests_cant": "division of int by uint32_t converts to unsigned; only negative sums expose it, tests use non-negative data", "anchors": ["include/ttl/nn/bits/kernels/cpu/pool.hpp: mean_accumulator::operator R"]}
{"id": "C39", "title": "4-d pooling equals per-image pooling with the same parameters", "statement": "pool on nhwc/nchw tensors produces, for each image (and channel), what the 2-d pool with the same kernel, stride and padding produces.", "quantifier": "all shapes, kernels, strides, paddings, contents", "why_tests_cant": "the 4-d code rebuilds a 2-d pool without forwarding padding; tests with padding check only shapes", "anchors": ["include/ttl/nn/bits/ops/pool.hpp: pool<nhwc>, pool<nchw>"]}
{"id": "C40", "title": "4-d pooling layouts agree", "statement": "Pooling in nhwc then transposing equals transposing then pooling in nchw.", "quantifier": "all inputs", "why_tests_cant": "two loop nests must agree", "anchors": ["include/ttl/nn/bits/ops/pool.hpp", "include/ttl/nn/bits/ops/transpose.hpp"]}
{"id": "C41", "title": "Max pooling commutes with monotone maps", "statement": "Max pooling commutes with any monotone elementwise map that keeps the lowest value, such as relu on windows that contain an image element.", "quantifier": "all inputs, all monotone maps", "why_tests_cant": "law over functions", "anchors": ["include/ttl/nn/bits/kernels/cpu/pool.hpp", "include/ttl/nn/bits/kernels/cpu/activation.hpp"]}
{"id": "C42", "title": "matmul gradients are the adjoints", "statement": "grad::matmul<0> and <1> write gx, gy with <gz, dx*y> = <gx, dx> and <gz, x*dy> = <gy, dy> for every perturbation: they are the exact vector-Jacobian products.", "quantifier": "all shapes, contents, perturbations", "why_tests_cant": "universally quantified over directions", "anchors": ["include/ttl/nn/bits/ops/gradients/matmul.hpp"]}
{"id": "C43", "title": "add and mul gradients are the adjoints", "statement": "Gradients of add and mul are the exact vector-Jacobian products.", "quantifier": "all shapes, contents, perturbations", "why_tests_cant": "all directions", "anchors": ["include/ttl/nn/bits/ops/gradients/add.hpp", "include/ttl/nn/bits/ops/gradients/mul.hpp"]}
{"id": "C44", "title": "bias gradients are the adjoints", "statement": "grad::add_bias<.,0> and <.,1> (hw and nhwc) are the exact vector-Jacobian products; the bias gradient sums gz over all positions of the channel, overwriting the output.", "quantifier": "all shapes, contents, perturbations", "why_tests_cant": "all directions", "anchors": ["include/ttl/nn/bits/ops/gradients/bias.hpp", "include/ttl/nn/bits/kernels/cpu/reduce.hpp"]}
{"id": "C45", "title": "Convolution image gradient is the adjoint", "statement": "grad::conv<nhwc,rscd,0> writes gx with <gz, conv(dx, y)> = <gx, dx> for every dx.", "quantifier": "all shapes with at most 2^31 elements per image, parameters, contents, perturbations", "why_tests_cant": "all directions; the existing test asserts nothing", "anchors": ["include/ttl/nn/bits/ops/gradients/conv2d.hpp: conv<nhwc,rscd,0>"]}
{"id": "C46", "title": "Convolution filter gradient is the adjoint", "statement": "grad::conv<nhwc,rscd,1> writes gy with <gz, conv(x, dy)> = <gy, dy> for every dy.", "quantifier": "all shapes with at most 2^31 elements per image, parameters, contents, perturbations", "why_tests_cant": "all directions; the existing test asserts nothing", "anchors": ["include/ttl/nn/bits/ops/gradients/conv2d.hpp: conv<nhwc,rscd,1>"]}
{"id": "C47", "title": "relu gradient", "statement": "grad::relu<0> is gy where x > 0 and 0 elsewhere, and over the reals it is the derivative of relu contracted with gy at every x without zero entries.", "quantifier": "all sizes, contents", "why_tests_cant": "real analysis statement", "anchors": ["include/ttl/nn/bits/ops/gradients/activation.hpp", "include/ttl/nn/bits/kernels/cpu/activation.hpp"]}
{"id": "C48", "title": "softmax gradient", "statement": "grad::softmax<0> evaluated at y = softmax(x) is, over the reals, the gradient of x -> <gy, softmax x> at every x where the eps clamp is inactive; for any y it equals y_j*(gy_j - sum_i gy_i*y_i).", "quantifier": "all sizes, x, gy over the reals", "why_tests_cant": "real analysis statement", "anchors": ["include/ttl/nn/bits/ops/gradients/softmax.hpp"]}
{"id": "C49", "title": "cross-entropy gradient", "statement": "grad::xentropy<1> is, over the reals, the gradient of the cross-entropy with respect to the prediction at every prediction with positive entries, per row of a batch.", "quantifier": "all sizes, x, y, gz over the reals", "why_tests_cant": "real analysis statement", "anchors": ["include/ttl/nn/bits/ops/gradients/xentropy.hpp", "include/ttl/nn/bits/kernels/cpu/loss.hpp"]}
{"id": "C50", "title": "softmax followed by cross-entropy", "statement": "Chaining grad::xentropy<1> into grad::softmax<0> yields gz*(y - x) when the target x sums to 1 and the clamp is inactive.", "quantifier": "all sizes, logits, targets over the reals", "why_tests_cant": "composition law over all inputs", "anchors": ["include/ttl/nn/bits/ops/gradients/softmax.hpp", "include/ttl/nn/bits/ops/gradients/xentropy.hpp"]}
{"id": "C51", "title": "softmax yields a probability vector", "statement": "Each row of softmax is max(eps, exp(x_i)/sum_j exp(x_j)); entries lie in [eps, 1] and are positive, they sum to 1 if the clamp is inactive and to between 1 and 1 + n*eps otherwise (0 <= eps <= 1).", "quantifier": "all sizes n >= 1, all real inputs, all eps", "why_tests_cant": "holds for all real vectors", "anchors": ["include/ttl/nn/bits/kernels/cpu/activation.hpp: softmax", "include/ttl/nn/bits/ops/activation.hpp"]}
{"id": "C52", "title": "softmax invariances", "statement": "softmax is invariant under adding a constant to a row, preserves the order of entries, commutes with permutations of a row, and treats rows independently for every rank.", "quantifier": "all real inputs", "why_tests_cant": "law over all inputs", "anchors": ["include/ttl/nn/bits/kernels/cpu/activation.hpp: softmax"]}
{"id": "C53", "title": "relu laws", "statement": "relu is idempotent, non-negative, monotone and equals max(x,0) elementwise.", "quantifier": "all linearly ordered inputs", "why_tests_cant": "law over all inputs", "anchors": ["include/ttl/nn/bits/kernels/cpu/activation.hpp: relu"]}
{"id": "C54", "title": "cross-entropy value and lower bound", "statement": "xentropy writes -sum x_i*log(y_i) per row; for probability vectors it is bounded below by the entropy of x, with equality at y = x.", "quantifier": "all real probability vectors, all batch sizes", "why_tests_cant": "Gibbs inequality over all vectors", "anchors": ["include/ttl/nn/bits/kernels/cpu/loss.hpp", "include/ttl/nn/bits/ops/loss.hpp"]}
{"id": "C55", "title": "batch normalisation formula", "statement": "batch_norm writes (x - mean_c)/(sqrt(var_c)+1e-6) and batch_norm_with_bias gamma_c times that plus beta_c for the element's channel c, in both layouts, which agree up to transposition; shapes are checked.", "quantifier": "all shapes and contents", "why_tests_cant": "in-place mul/add after normalisation at every index; argument order of beta and gamma", "anchors": ["include/ttl/nn/bits/kernels/cpu/normalization.hpp", "include/ttl/nn/bits/ops/bn.hpp"]}
{"id": "C56", "title": "onehot", "statement": "onehot writes 1 at (i, x[i]) and 0 elsewhere for labels in range and a zero row for labels out of range, provided k is representable in the label type.", "quantifier": "all label vectors, k, label types", "why_tests_cant": "narrowing of k only shows for k beyond the label type", "anchors": ["include/ttl/nn/bits/kernels/cpu/utility.hpp: onehot"]}
{"id": "C57", "title": "argmax inverts onehot", "statement": "argmax returns the first position of a row maximum, and argmax(onehot(x)) = x for in-range labels.", "quantifier": "all inputs of a linearly ordered type", "why_tests_cant": "law over all inputs", "anchors": ["include/ttl/nn/bits/kernels/cpu/utility.hpp: argmax"]}
{"id": "C58", "title": "top returns the k largest with their indices", "statement": "top writes min(n,k) values in descending order with distinct indices into x such that every unselected element is at most every selected one; equal values are ordered by descending index; the result does not depend on the sorting algorithm.", "quantifier": "all inputs, all k", "why_tests_cant": "all permutations and ties", "anchors": ["include/ttl/nn/bits/kernels/cpu/utility.hpp: top"]}
{"id": "C59", "title": "similarity", "statement": "similarity is 1 minus the fraction of differing positions: in [0,1], 1 iff the tensors are equal, symmetric.", "quantifier": "all non-empty tensors of equal shape", "why_tests_cant": "law over all inputs", "anchors": ["include/ttl/nn/bits/kernels/cpu/utility.hpp: similarity"]}
{"id": "C60", "title": "Scalar summaries", "statement": "min/max/span/sum/mean/var/std/adj_diff_sum satisfy their definitions: min and max are attained bounds, span = max - min >= 0, mean lies between min and max, var = mean of squares minus square of mean >= 0, adj_diff_sum >= span; scalar_summaries writes them in the listed order.", "quantifier": "all non-empty real tensors, all lists of summaries", "why_tests_cant": "laws over all inputs", "anchors": ["include/ttl/nn/bits/ops/summary.hpp", "include/ttl/nn/bits/ops/reduce.hpp"]}
{"id": "C61", "title": "Initialisers", "statement": "zeros, ones, constant and uniform_constant overwrite every element with the value (uniform_constant: 1/size, so elements sum to 1).", "quantifier": "all shapes and contents", "why_tests_cant": "all elements", "anchors": ["include/ttl/nn/bits/kernels/cpu/init.hpp", "include/ttl/nn/bits/ops/init.hpp"]}
{"id": "C62", "title": "Truncated normal stays in bounds", "statement": "truncated_normal(stddev) writes only values with absolute value at most 2*|stddev|, each being a draw of the generator, in draw order skipping exactly the rejected draws; with a seed the output is a function of the seed: the first draws within the bound that the generator with this seed gives, whatever the random device returned before.", "quantifier": "every sequence of generator draws", "why_tests_cant": "depends on every possible random stream", "anchors": ["include/ttl/nn/bits/ops/init.hpp: truncated_normal"]}
{"id": "C63", "title": "Table-driven CRC equals bitwise CRC", "statement": "The table-driven checksum of any byte sequence equals the bit-by-bit reflected CRC with initial value and final xor all ones, for every polynomial and width.", "quantifier": "all byte sequences, polynomials, widths >= 8", "why_tests_cant": "2^8 table entries times unbounded inputs; tests check one string", "anchors": ["include/ttl/nn/bits/kernels/cpu/hash.hpp: crc"]}
{"id": "C64", "title": "CRC is incremental and affine", "statement": "The checksum state after a concatenation is obtained by continuing from the state after the first part; for equal-length inputs crc(a)^crc(b)^crc(c) = crc(a^b^c).", "quantifier": "all byte sequences", "why_tests_cant": "law over all inputs", "anchors": ["include/ttl/nn/bits/kernels/cpu/hash.hpp: crc::sum"]}
{"id": "C65", "title": "CRC detects local corruption", "statement": "If the polynomial has its top bit set (as usb, ieee and ecma do) then any change confined to a window of at most width bits (in particular any single byte) changes the checksum of a message of any length.", "quantifier": "all messages, all corruptions within a window", "why_tests_cant": "all positions and all messages", "anchors": ["include/ttl/nn/bits/kernels/cpu/hash.hpp", "include/ttl/nn/bits/ops/hash.hpp: crc_polynomials"]}
{"id": "C66", "title": "CRC is a polynomial remainder", "statement": "The checksum is the remainder of polynomial division over GF(2) of the (initialised, shifted) message by the generator polynomial. The generators of crc16_usb, crc32_ieee and crc64_ecma are the polynomials published under these names, e.g. X^16 + X^15 + X^2 + 1 for crc16_usb.", "quantifier": "all messages and polynomials", "why_tests_cant": "semantic identification with the mathematical object", "anchors": ["include/ttl/nn/bits/kernels/cpu/hash.hpp"]}
{"id": "C67", "title": "Idx header is big-endian", "statement": "writefile emits bytes 0,0,dtype,rank, then each dimension as 4 big-endian bytes, then the raw elements; byte swapping is an involution.", "quantifier": "all shapes with dimensions < 2^32, all contents", "why_tests_cant": "all dimension values", "anchors": ["include/ttl/nn/bits/kernels/cpu/io.hpp: serializer::write, byte_endian_swapped"]}
{"id": "C68", "title": "File round trip", "statement": "readfile into a tensor of the same type and shape after writefile returns exactly the written elements, whatever the tensor held before.", "quantifier": "all ranks, shapes, element types, contents, previous contents", "why_tests_cant": "unbounded shapes", "anchors": ["include/ttl/nn/bits/kernels/cpu/io.hpp", "include/ttl/nn/bits/ops/io.hpp"]}
{"id": "C69", "title": "Mismatched files are rejected", "statement": "readfile throws std::runtime_error and leaves the tensor unchanged when the file's magic, element type, rank or any dimension differs from the tensor's; it throws when the file does not exist.", "quantifier": "all files and tensors", "why_tests_cant": "all file contents", "anchors": ["include/ttl/nn/bits/kernels/cpu/io.hpp: serializer::read"]}
{"id": "C70", "title": "Truncated files are detected", "statement": "readfile never returns normally on a file with fewer data bytes than the tensor needs.", "quantifier": "all truncation points", "why_tests_cant": "the code ignores stream state; the failing inputs are every crash point of a writer", "anchors": ["include/ttl/nn/bits/kernels/cpu/io.hpp: serializer::read"]}
{"id": "C71", "title": "Files behave like a map of last writes", "statement": "For every history of writefile calls, readfile returns the tensor most recently written under that name and other files are unaffected.", "quantifier": "all histories of writes and reads", "why_tests_cant": "histories are unbounded", "anchors": ["include/ttl/nn/bits/kernels/cpu/io.hpp", "include/ttl/nn/bits/ops/io.hpp"]}
{"id": "C72", "title": "Tar lookup finds the last member with the name", "statement": "For every archive consisting of 512-byte headers with octal sizes and zero-padded contents, readtar(file,name) reads from the content of the last member called name and throws std::invalid_argument if there is none.", "quantifier": "all archives (any number of members, sizes < 2^31), all names", "why_tests_cant": "archives are unbounded sequences", "anchors": ["include/ttl/nn/bits/ops/io_tar.hpp: make_tar_index, tar_index", "include/ttl/nn/bits/ops/io.hpp: readtar"]}
{"id": "C73", "title": "Tar indexing reads whole blocks and terminates", "statement": "While indexing, the read position stays a multiple of 512 inside the file so every header read is complete, and indexing terminates for every file whose size fields are non-negative.", "quantifier": "all file contents", "why_tests_cant": "termination over all files; a negative size field loops", "anchors": ["include/ttl/nn/bits/ops/io_tar.hpp: make_tar_index"]}
{"id": "C74", "title": "Tar files of odd size are rejected", "statement": "Indexing throws std::runtime_error when the file size is not a multiple of 512 or the file does not exist.", "quantifier": "all files", "why_tests_cant": "all sizes", "anchors": ["include/ttl/nn/bits/ops/io_tar.hpp"]}
{"id": "C75", "title": "Name scopes nest and unwind", "statement": "with(prefix, f) runs f with prefix pushed and restores the previous prefix afterwards, even if f throws; *ns is the separator-joined list of enclosing prefixes (prefixes that are empty while nothing has been joined yet contribute nothing) and ns(name) appends name.", "quantifier": "all nesting structures, names, separators, exception points", "why_tests_cant": "all nestings and exception points", "anchors": ["include/ttl/nn/bits/models/namescope.hpp"]}
{"id": "C76", "title": "Sequential models compose layers", "statement": "(make_sequential() << l1 << ... << ln)(x) feeds x through l1..ln in order, stops at the first layer that throws, and with_init passes the initialisers in order; a parameter whose initialiser is omitted keeps whatever its memory held when it was allocated.", "quantifier": "all layer lists and inputs", "why_tests_cant": "unbounded layer lists", "anchors": ["include/ttl/nn/bits/models/sequential.hpp"]}
{"id": "C77", "title": "Dense layer", "statement": "dense(k) on an [n,m] input returns act(x*w + b) of shape [n,k] with weight shape [m,k] and bias shape [k].", "quantifier": "all shapes, contents, initialisers", "why_tests_cant": "composition over all inputs", "anchors": ["include/ttl/nn/bits/layers/dense.hpp", "include/ttl/nn/bits/layers/call.hpp"]}
{"id": "C78", "title": "Conv layer", "statement": "The conv layer derives padding from its policy per axis, allocates filter and bias of the right shapes and returns act(conv(x,w)+b); with same padding and stride 1 the output has the height and width of the input for every kernel size and rate.", "quantifier": "all shapes, parameters, initialisers", "why_tests_cant": "composition over all inputs", "anchors": ["include/ttl/nn/bits/layers/conv.hpp"]}
{"id": "C79", "title": "Pool layer accepts every image", "statement": "The default pool layer (kernel k, same padding, stride k) returns a pooled image for every input size.", "quantifier": "all image sizes", "why_tests_cant": "same_padding asserts patch >= stride + n mod stride, so any size not divisible by k throws; tests use 32 and 2", "anchors": ["include/ttl/nn/bits/layers/pool.hpp"]}
{"id": "C80", "title": "Shape inference and execution agree", "statement": "For every operator and gradient modelled, if its shape function accepts the arguments then running it on any output buffer of the inferred shape neither throws nor is undefined and keeps the size of the buffer. Ranges: sampling parameters and padded sizes representable in their types, images of at most 2^31 elements for nhwc convolution, channel sums below 2^32 for concat. The only exception is mean pooling of integers, which is undefined on a window that contains padding only.", "quantifier": "all operators, all shapes accepted by inference, all contents", "why_tests_cant": "memory safety over all inputs", "anchors": ["include/ttl/nn/bits/ops/activation.hpp", "include/ttl/nn/bits/ops/bias.hpp", "include/ttl/nn/bits/ops/blas.hpp", "include/ttl/nn/bits/ops/bn.hpp", "include/ttl/nn/bits/ops/col2im.hpp", "include/ttl/nn/bits/ops/col2im1d.hpp", "include/ttl/nn/bits/ops/concat.hpp", "include/ttl/nn/bits/ops/conv1d.hpp", "include/ttl/nn/bits/ops/conv2d.hpp", "include/ttl/nn/bits/ops/elementary.hpp", "include/ttl/nn/bits/ops/im2col.hpp", "include/ttl/nn/bits/ops/im2col1d.hpp", "include/ttl/nn/bits/ops/loss.hpp", "include/ttl/nn/bits/ops/pool.hpp", "include/ttl/nn/bits/ops/reduce.hpp", "include/ttl/nn/bits/ops/reshape.hpp", "include/ttl/nn/bits/ops/transpose.hpp", "include/ttl/nn/bits/ops/gradients/activation.hpp", "include/ttl/nn/bits/ops/gradients/add.hpp", "include/ttl/nn/bits/ops/gradients/bias.hpp", "include/ttl/nn/bits/ops/gradients/conv2d.hpp", "include/ttl/nn/bits/ops/gradients/matmul.hpp", "include/ttl/nn/bits/ops/gradients/mul.hpp", "include/ttl/nn/bits/ops/gradients/reshape.hpp", "include/ttl/nn/bits/ops/gradients/softmax.hpp", "include/ttl/nn/bits/ops/gradients/xentropy.hpp"]}
{"id": "C81", "title": "Softmax is not an in-place operation", "statement": "Calling softmax with the output tensor being its input gives a different result from calling it with a separate output: already written entries are read as inputs. Each entry is computed from the results in front of it and the inputs behind it; a row comes out right exactly if all its entries but the last were their own softmax before.", "quantifier": "existence of an input; the separate-output result holds for all inputs", "why_tests_cant": "tests always use a separate output; elementwise operators are safe in place so callers may assume it", "anchors": ["include/ttl/nn/bits/kernels/cpu/activation.hpp", "include/ttl/nn/bits/ops/activation.hpp"]}
{"id": "C82", "title": "Row means", "statement": "ops::mean writes, for every row of the last axis, the sum of the row in index order divided by its length; for integer element types with negative sums this fails because the length is unsigned.", "quantifier": "all shapes and contents; all element types with total arithmetic", "why_tests_cant": "the integer failure needs negative sums, tests use floats", "anchors": ["include/ttl/nn/bits/ops/reduce.hpp", "include/ttl/nn/bits/ops/summary.hpp"]}
{"id": "C83", "title": "A write that does not fit is reported", "statement": "writefile never returns normally without having stored the whole tensor, whatever the state of the device.", "quantifier": "all tensors, all amounts of free space", "why_tests_cant": "needs a full device; no test does that", "anchors": ["include/ttl/nn/bits/kernels/cpu/io.hpp: writefile", "include/ttl/nn/bits/kernels/cpu/io.hpp: serializer::write"]}
{"id": "C84", "title": "Layer calls do not leak", "statement": "A layer call that returns leaves exactly the tensors owned by the returned object allocated, and one that throws releases everything it allocated.", "quantifier": "all layers, shapes, initialisers and exception points", "why_tests_cant": "needs every exception point; no test inspects allocations", "anchors": ["include/ttl/nn/bits/layers/dense.hpp", "include/ttl/nn/bits/layers/conv.hpp", "include/ttl/nn/bits/layers/pool.hpp", "include/ttl/nn/bits/layers/call.hpp", "include/ttl/nn/bits/layers/layer.hpp"]}
{"id": "C85", "title": "Activation argument equals a separate activation layer", "statement": "A layer with an activation template argument returns the same values as the same layer without it followed by layers::activation.", "quantifier": "all inputs, parameters and activations", "why_tests_cant": "the fused activation runs in place, which only matters for activations that read more than one entry", "anchors": ["include/ttl/nn/bits/layers/dense.hpp", "include/ttl/nn/bits/layers/conv.hpp", "include/ttl/nn/bits/layers/activation.hpp"]}
{"id": "C86", "title": "Batch normalisation layer", "statement": "The four initialisers of a batch_norm layer fill the moving mean, the moving variance, beta and gamma, each with one entry per channel, and the layer returns act((x - mean) / (sqrt(var) + eps) * gamma + beta).", "quantifier": "all shapes, contents, initialisers", "why_tests_cant": "which initialiser feeds which parameter is invisible with equal initialisers", "anchors": ["include/ttl/nn/bits/layers/bn.hpp", "include/ttl/nn/bits/layers/call.hpp", "include/ttl/nn/bits/ops/bn.hpp"]}
{"id": "C87", "title": "Padding can be made explicit", "statement": "Convolution with padding equals convolution without padding of the image surrounded by that many zeros; the same holds for 1-d convolution.", "quantifier": "all shapes, strides, rates, paddings, contents over a semiring", "why_tests_cant": "relates two calls on unbounded shapes", "anchors": ["include/ttl/nn/bits/ops/conv2d.hpp", "include/ttl/nn/bits/ops/conv1d.hpp"]}
{"id": "C88", "title": "Dilation is zero insertion", "statement": "Convolution with rate r equals convolution with rate 1 by the filter with r-1 zeros inserted between neighbouring taps; also in 1-d.", "quantifier": "all shapes, rates, contents over a semiring", "why_tests_cant": "relates two calls on unbounded shapes", "anchors": ["include/ttl/nn/bits/ops/conv2d.hpp", "include/ttl/nn/bits/ops/conv1d.hpp"]}
{"id": "C89", "title": "Stride is subsampling", "statement": "Convolution with stride s gives every s-th entry of the stride-1 convolution with the same padding and rate; also in 1-d.", "quantifier": "all shapes, strides, contents over a semiring", "why_tests_cant": "relates two calls on unbounded shapes", "anchors": ["include/ttl/nn/bits/ops/conv2d.hpp", "include/ttl/nn/bits/ops/conv1d.hpp"]}
{"id": "C90", "title": "Convolution is local", "statement": "Without padding, convolving a cropped image (crop offset a multiple of the stride) gives the matching crop of the convolution of the whole image, so images can be processed in tiles.", "quantifier": "all crops, shapes, contents over a semiring", "why_tests_cant": "all tilings of all images", "anchors": ["include/ttl/nn/bits/ops/conv2d.hpp"]}
{"id": "C91", "title": "Summation order of convolution", "statement": "Every output of nhwc convolution is the left-to-right sum, starting at zero, of the products over filter row, filter column, channel in that nesting order, with the products of padding included; for nchw the order is channel, filter row, filter column and the weight is the first factor; bit for bit, for any arithmetic.", "quantifier": "all shapes, contents, all element types without any arithmetic law", "why_tests_cant": "floating-point reproducibility over all inputs", "anchors": ["include/ttl/nn/bits/kernels/cpu/conv2d.hpp", "include/ttl/nn/bits/ops/conv2d.hpp"]}
{"id": "C92", "title": "Convolution degenerates to matrix multiplication", "statement": "A 1x1 convolution without padding and with stride 1 equals matmul of the pixels with the filter, and a convolution whose filter has the size of the image equals matmul of the flattened images, bit for bit.", "quantifier": "all shapes, contents, any arithmetic", "why_tests_cant": "all shapes; bitwise equality", "anchors": ["include/ttl/nn/bits/ops/conv2d.hpp", "include/ttl/nn/bits/ops/blas.hpp"]}
{"id": "C93", "title": "Rounding error of products and convolutions", "statement": "With any arithmetic whose + and * have relative error at most u, every entry of matmul (all three variants) and nhwc convolution differs from the exact value by at most ((1+u)^(l+1)-1) times the sum of the absolute products, l being the inner length.", "quantifier": "all u >= 0, all rounding functions, shapes, contents", "why_tests_cant": "a bound over all inputs and rounding modes", "anchors": ["include/ttl/nn/bits/ops/blas.hpp", "include/ttl/nn/bits/ops/conv2d.hpp", "include/ttl/nn/bits/engines/plain_impl.hpp"]}
{"id": "C94", "title": "Softmax never produces NaN", "statement": "Every softmax output is a number between eps and 1, whatever the input row contains (NaN and infinities included); a row containing NaN or +inf comes out as eps everywhere, so a bad input is masked.", "quantifier": "all inputs including NaN and infinities, any monotone rounding", "why_tests_cant": "special values in all positions of all rows", "anchors": ["include/ttl/nn/bits/kernels/cpu/activation.hpp", "include/ttl/nn/bits/ops/activation.hpp"]}
{"id": "C95", "title": "Cross entropy of softmax outputs is finite", "statement": "The cross entropy of one-hot labels with softmax outputs is a finite number between 0 and -log eps (rounding included), for every input of softmax, NaN and infinities included.", "quantifier": "all inputs including NaN and infinities", "why_tests_cant": "special values in all positions", "anchors": ["include/ttl/nn/bits/kernels/cpu/loss.hpp", "include/ttl/nn/bits/kernels/cpu/activation.hpp"]}
{"id": "C96", "title": "How NaN travels", "statement": "relu maps NaN to 0; max pooling (operators and layers, both layouts) ignores NaN; argmax of a row that starts with NaN is 0 whatever follows, and otherwise NaN entries are ignored.", "quantifier": "all inputs, all positions of NaN", "why_tests_cant": "special values in all positions", "anchors": ["include/ttl/nn/bits/kernels/cpu/activation.hpp", "include/ttl/nn/bits/kernels/cpu/pool.hpp", "include/ttl/nn/bits/kernels/cpu/utility.hpp: argmax"]}
{"id": "C97", "title": "A training step is a gradient step", "statement": "One iteration of the softmax-regression training loop stores the mean cross entropy of the batch under the old parameters and subtracts from the weights and biases exactly the gradient of that mean loss (weights of the examples 1/batch); nothing depends on what the temporaries held before.", "quantifier": "all batch sizes, numbers of pixels and classes, data, parameters, contents of temporaries; derivative in every direction", "why_tests_cant": "correctness of a gradient is a statement about all directions and all real inputs", "anchors": ["examples/example_train_mnist_slp.cpp: slp, train_slp_model", "include/ttl/nn/bits/ops/gradients/xentropy.hpp", "include/ttl/nn/bits/ops/gradients/softmax.hpp"]}
{"id": "C98", "title": "Reported accuracy", "statement": "The accuracy printed for a model is the fraction of the images of the data set for which the first of the greatest logits is at the label of the image.", "quantifier": "all data sets, parameters, classes < 256", "why_tests_cant": "all data; ties", "anchors": ["examples/example_train_mnist_slp.cpp: accuracy, test_slp_model", "include/ttl/nn/bits/kernels/cpu/utility.hpp"]}
{"id": "C99", "title": "A training run is stochastic gradient descent over consecutive batches", "statement": "Training with batch size m on n images performs n/m gradient steps (rounded down), step t on the images t*m to t*m+m-1 with pixels normalised and labels one-hot encoded; every one of the first (n/m)*m images is used exactly once and the others never; batch size 0 is undefined.", "quantifier": "all n, m, images, labels, initial parameters", "why_tests_cant": "unbounded number of steps", "anchors": ["examples/example_train_mnist_slp.cpp: load_data, train_slp_model"]}
{"id": "C100", "title": "The data set loader returns what the files contain", "statement": "For well formed idx files the mnist loader returns exactly the pixels and labels in the files train-* or t10k-*; an unknown data set name, a missing file, or a file with another element type or other dimensions is an error. Data that ends early is not an error: the rest of the tensor is uninitialised.", "quantifier": "all file systems, names, contents", "why_tests_cant": "all file contents", "anchors": ["include/ttl/nn/experimental/bits/datasets/mnist.hpp: load_mnist_data", "include/ttl/nn/bits/kernels/cpu/io.hpp"]}
{"id": "C101", "title": "The image classification example computes VGG16", "statement": "For images whose sides are multiples of 32 and parameter files holding filters, weights and biases, the program reports the m greatest of the class probabilities that the VGG16 network (13 convolutions, 5 poolings, 3 dense layers, softmax) gives to the first image, with their classes, in order, and releases all its memory. Any other image size is rejected with an exception before the dense layers are built, and nothing is leaked.", "quantifier": "all images, batch sizes, parameters, sides up to 2^25 pixels, all m", "why_tests_cant": "all parameters and images; whole-network composition", "anchors": ["examples/example_model_vgg16.cpp: vgg16_model", "include/ttl/nn/bits/models/sequential.hpp", "include/ttl/nn/bits/layers/conv.hpp", "include/ttl/nn/bits/layers/pool.hpp", "include/ttl/nn/bits/layers/dense.hpp", "include/ttl/nn/bits/kernels/cpu/utility.hpp: top"]}
{"id": "C102", "title": "Class names and example image", "statement": "The class names read are exactly the lines of the file, an unterminated last line included and a final empty one not; the picture is the stored one with the mean colour subtracted from every pixel.", "quantifier": "all file contents", "why_tests_cant": "all file contents", "anchors": ["examples/vgg16_common.hpp: load_class_names, read_example_image", "include/ttl/nn/bits/ops/bias.hpp"]}
{"id": "C103", "title": "Layer-by-layer and sequential formulations agree", "statement": "The program that calls the layers one by one and the one that builds sequential models give the same result, raise the same exception and leave the same memory behind, for every image and every contents of the parameter files, malformed ones included.", "quantifier": "all inputs, parameters, arithmetic", "why_tests_cant": "equality of two whole programs on all inputs", "anchors": ["examples/example_layer_vgg16.cpp: example_vgg16", "examples/example_model_vgg16.cpp: vgg16_model"]}
{"id": "C104", "title": "Concatenation layer", "statement": "The channel concatenation layer returns a new tensor in which the channels of the operands follow one another in order at every pixel; operands that differ in another dimension are refused with an exception and nothing is left allocated.", "quantifier": "all shapes and contents", "why_tests_cant": "all shapes; which operand each channel comes from", "anchors": ["include/ttl/nn/bits/layers/concat.hpp", "include/ttl/nn/bits/ops/concat.hpp"]}
{"id": "C105", "title": "invoke returns a fresh tensor or nothing", "statement": "Calling an operator through invoke infers the shape, runs the operator on a new tensor of that shape and hands the tensor to the caller; what the new memory held before is irrelevant for every operator that writes its whole output, and when shape inference or the operator throws no memory stays allocated.", "quantifier": "all operators, shapes, contents, exception points", "why_tests_cant": "memory and exception behaviour for all operators", "anchors": ["include/ttl/nn/experimental/functional: invoke"]}
{"id": "C106", "title": "Bias kernel with several vectors", "statement": "Applying a function of the element and of several bias vectors gives at every position the function of that element and of the entries of the vectors for its channel; with two vectors it is the same as applying two biases one after the other.", "quantifier": "all shapes, numbers of vectors, functions, contents, in place or not", "why_tests_cant": "all shapes and any number of vectors", "anchors": ["include/ttl/nn/bits/kernels/cpu/bias.hpp: apply_bias"]}
{"id": "C107", "title": "Batch normalisation folds into the convolution", "statement": "A convolution layer without activation followed by a batch normalisation layer gives the same image as one convolution layer with scaled filter gamma/(sqrt(var)+eps) and shifted bias, over any field.", "quantifier": "all shapes, strides, rates, paddings, parameters, both layouts", "why_tests_cant": "equality of two networks for all parameters", "anchors": ["include/ttl/nn/bits/layers/conv.hpp", "include/ttl/nn/bits/layers/bn.hpp", "include/ttl/nn/bits/models/sequential.hpp"]}
{"id": "C108", "title": "Dense layers without activation merge", "statement": "Two dense layers in a row, the first without activation, give the same output as one dense layer with the product of the two matrices and the image of the first bias plus the second.", "quantifier": "all sizes, parameters, contents over a semiring", "why_tests_cant": "equality of two networks for all parameters", "anchors": ["include/ttl/nn/bits/layers/dense.hpp", "include/ttl/nn/bits/models/sequential.hpp"]}
{"id": "C109", "title": "A one-hot matrix selects rows", "statement": "Multiplying the one-hot encoding of labels with a matrix looks up the row of each label; a label outside the range gives a row of zeros.", "quantifier": "all label vectors, label types, matrices", "why_tests_cant": "all labels including invalid ones", "anchors": ["include/ttl/nn/bits/ops/utility.hpp", "include/ttl/nn/bits/ops/blas.hpp"]}
{"id": "C110", "title": "Pooling layers with any padding policy", "statement": "A pooling layer with any kernel, stride and padding policy returns the maximum (mean) of the pixels under each window position, padding counted on the side the policy says; a policy that throws makes the layer throw with nothing allocated.", "quantifier": "all shapes, kernels, strides, policies, contents, both layouts", "why_tests_cant": "all geometries", "anchors": ["include/ttl/nn/bits/layers/pool.hpp", "include/ttl/nn/bits/kernels/cpu/pool.hpp", "include/ttl/nn/bits/ops/pool.hpp"]}
{"id": "C111", "title": "Examples of a batch are independent", "statement": "For dense, convolution, pooling, batch normalisation, activation and softmax layers and every sequential network of them, the output for a batch is the outputs for its parts put together: no example depends on its neighbours, its position or the batch size, bit for bit, in any arithmetic. The image classification example reports the same for a batch as for its first image alone.", "quantifier": "all batch sizes, ways of splitting, contents, parameters, networks", "why_tests_cant": "equality of calls on unbounded batches and arbitrary networks", "anchors": ["include/ttl/nn/bits/layers/dense.hpp", "include/ttl/nn/bits/layers/conv.hpp", "include/ttl/nn/bits/layers/pool.hpp", "include/ttl/nn/bits/layers/bn.hpp", "include/ttl/nn/bits/layers/activation.hpp", "include/ttl/nn/bits/models/sequential.hpp", "examples/example_model_vgg16.cpp: vgg16_model"]}
{"id": "C112", "title": "Casting converts element by element", "statement": "Casting a tensor to another element type fills the result with the conversion of every element, in order, whatever it held before; a cast there and back is the identity whenever the conversions undo each other on the elements present, and two casts are one cast by the composed conversion.", "quantifier": "all element types, conversions, contents, lengths", "why_tests_cant": "all lengths and conversions", "anchors": ["include/ttl/nn/bits/kernels/cpu/utility.hpp: cast"]}
{"id": "C113", "title": "Row and column sums", "statement": "The inner contraction of a matrix holds the sums of its rows, the outer contraction those of its columns, each added up in order from zero; they are the products with a vector of ones bit for bit, and in exact arithmetic both have the total of the matrix.", "quantifier": "all shapes, contents, any arithmetic", "why_tests_cant": "bitwise results for all shapes", "anchors": ["include/ttl/nn/bits/kernels/cpu/reduce.hpp: inner_contraction, outter_contraction", "include/ttl/nn/bits/engines/plain_impl.hpp"]}
{"id": "C114", "title": "Pooling layers in a row merge", "statement": "Two max pooling layers (two mean pooling layers) with tiles of k and then l pixels per side give the same image as one layer with tiles of k*l pixels per side.", "quantifier": "all tile sizes, images whose sides are multiples, both layouts; all linear orders (max), all fields (mean)", "why_tests_cant": "equality of two networks on all images", "anchors": ["include/ttl/nn/bits/layers/pool.hpp", "include/ttl/nn/bits/kernels/cpu/pool.hpp", "include/ttl/nn/bits/models/sequential.hpp"]}
{"id": "C115", "title": "Max pooling commutes with relu", "statement": "A relu layer (any monotone elementwise layer) before a max pooling layer gives the same image as after it.", "quantifier": "all images, tile sizes, monotone functions, both layouts", "why_tests_cant": "equality of two networks on all images", "anchors": ["include/ttl/nn/bits/layers/pool.hpp", "include/ttl/nn/bits/layers/activation.hpp", "include/ttl/nn/bits/models/sequential.hpp"]}
{"id": "C116", "title": "Channels of a convolution", "statement": "Reordering the channels of the images and of the filter alike does not change a convolution; selecting or reordering filters selects or reorders the output channels in the same way, bit for bit, so an output channel depends on its own filter only.", "quantifier": "all reorderings and selections, shapes, strides, rates, paddings, contents, both layouts", "why_tests_cant": "all permutations", "anchors": ["include/ttl/nn/bits/ops/conv2d.hpp", "include/ttl/nn/bits/kernels/cpu/conv2d.hpp"]}
{"id": "C117", "title": "Convolutions in a row merge", "statement": "Two convolutions in a row, the second without padding, equal one convolution whose filter collects the products of the taps that meet, with the product of the strides; two convolution layers, the first without activation, equal one layer with that filter and the image of the first bias added to the second.", "quantifier": "all kernel sizes, strides, rates, padding of the first, contents, both layouts and 1-d", "why_tests_cant": "equality of two networks for all geometries", "anchors": ["include/ttl/nn/bits/ops/conv2d.hpp", "include/ttl/nn/bits/ops/conv1d.hpp", "include/ttl/nn/bits/layers/conv.hpp", "include/ttl/nn/bits/models/sequential.hpp"]}
{"id": "C118", "title": "Parameters restored from files are the stored ones", "statement": "A parameter initialised from a tar archive of idx files (or from an idx file) gets exactly the elements of the last member of its name, whatever it held before; a tensor written to a file, archived under that name and read back is unchanged; the image classification example run on an archive of all its parameters classifies with exactly those parameters, and on an archive that lacks any one of them it never reports a result. A missing file, or one whose header is not that of the parameter, is refused with std::runtime_error.", "quantifier": "all archives, element types, shapes, contents, previous contents, images", "why_tests_cant": "all archive contents; composition of file format and network", "anchors": ["include/ttl/nn/bits/ops/io.hpp", "include/ttl/nn/bits/ops/io_tar.hpp", "include/ttl/nn/bits/kernels/cpu/io.hpp", "include/ttl/nn/bits/layers/call.hpp", "examples/example_model_vgg16.cpp: vgg16_model", "examples/example_train_mnist_slp.cpp: main"]}
{"id": "C119", "title": "Rounding error of sums and means", "statement": "Row sums, column sums, row means and mean pooling computed in floating point are within (1+u)^n - 1 (one more rounding for the division) of the exact ones, relative to the same quantity of the absolute values, n being the number of summands.", "quantifier": "all contents and shapes, every rounding of relative error u without overflow or underflow, every division of relative error v; both layouts", "why_tests_cant": "a bound for all inputs and sizes", "anchors": ["include/ttl/nn/bits/kernels/cpu/reduce.hpp", "include/ttl/nn/bits/ops/summary.hpp", "include/ttl/nn/bits/kernels/cpu/pool.hpp", "include/ttl/nn/bits/layers/pool.hpp"]}
{"id": "C120", "title": "Rounding error of networks", "statement": "The floating-point outputs of dense, convolution and max pooling layers (activation relu or none) and of every network composed of them differ from the exact ones by at most an explicit bound, computed layer by layer from the weights, the exact values and the error of the inputs; and if the exact score of one class beats all others by more than twice the bound, the computed prediction is that class.", "quantifier": "all weights, inputs, input errors, shapes, geometries, roundings of relative error u, network depths", "why_tests_cant": "a bound for all inputs and networks", "anchors": ["include/ttl/nn/bits/layers/dense.hpp", "include/ttl/nn/bits/layers/conv.hpp", "include/ttl/nn/bits/layers/pool.hpp", "include/ttl/nn/bits/models/sequential.hpp", "include/ttl/nn/bits/ops/utility.hpp: argmax"]}
{"id": "C121", "title": "Which errors the checksums detect", "statement": "Two messages of the same length have the same checksum exactly if the generator polynomial divides the polynomial of the bits in which they differ. Flipping two bits changes crc16_usb, crc32_ieee and crc64_ecma unless their distance is a multiple of 32767, 2^32 - 1 and 8589606914 bits; flipping an odd number of bits always changes crc16_usb and crc64_ecma (not always crc32_ieee). A message followed by its checksum, least significant byte first, has a fixed checksum, and no other trailing bytes of that length give it.", "quantifier": "all messages of all lengths, all pairs of positions, all odd error patterns", "why_tests_cant": "an exact answer for all messages and all positions up to 2^33 bits apart", "anchors": ["include/ttl/nn/bits/kernels/cpu/hash.hpp", "include/ttl/nn/bits/ops/hash.hpp"]}
{"id": "C122", "title": "Old contents of the output do not matter", "statement": "What an operator computes does not depend on what the output tensor held before the call, for every operator and gradient operator and whatever the arithmetic of the elements (floating point included), so memory need not be cleared between calls. The one exception is top with k greater than the length of the input: the elements in excess keep what they held.", "quantifier": "all operators, arguments accepted by shape inference, pairs of previous contents", "why_tests_cant": "two runs differing only in invisible state, for all states", "anchors": ["include/ttl/nn/bits/kernels/cpu/blas.hpp", "include/ttl/nn/bits/kernels/cpu/elementary.hpp", "include/ttl/nn/bits/kernels/cpu/conv2d.hpp", "include/ttl/nn/bits/kernels/cpu/pool.hpp", "include/ttl/nn/bits/kernels/cpu/im2col.hpp", "include/ttl/nn/bits/kernels/cpu/col2im.hpp", "include/ttl/nn/bits/kernels/cpu/utility.hpp: top", "include/ttl/nn/bits/ops/gradients/conv2d.hpp"]}
{"id": "C123", "title": "Reflections and transposition of images", "statement": "Reflect images and filters left to right, top to bottom or both, exchanging the paddings at the two ends: convolution (NHWC, NCHW and 1-d) returns the reflected output, for every stride, rate and padding; exchange rows and columns of images, filter and trait: it returns the transposed output. Max and mean pooling of one image commute with the same operations at any padding, pooling layers that add no padding with reflections in both layouts.", "quantifier": "all images, filters, geometries, channels, batch sizes, all four reflections", "why_tests_cant": "equality of two runs for all inputs and geometries", "anchors": ["include/ttl/nn/bits/kernels/cpu/conv2d.hpp", "include/ttl/nn/bits/kernels/cpu/im2col.hpp", "include/ttl/nn/bits/kernels/cpu/pool.hpp", "include/ttl/nn/bits/layers/pool.hpp", "include/ttl/nn/bits/ops/conv1d.hpp"]}
{"id": "C124", "title": "Backpropagation through any chain of operators", "statement": "A program that calls operators one after the other, each on the output of the one before, and then their gradient operators in the reverse order computes the gradient of the whole chain with respect to its first input (a tensor or a parameter), for every loss on the last output, whatever the tensors written held before. The operators are matmul, add_bias, add, mul, conv (each with respect to either argument), copy_flatten, relu (away from 0), softmax (above its clamp) and xentropy (of positive predictions).", "quantifier": "all lengths and choices of the chain, shapes, geometries, parameters, inputs and losses", "why_tests_cant": "derivatives of compositions for all programs and inputs", "anchors": ["include/ttl/nn/bits/ops/gradients/matmul.hpp", "include/ttl/nn/bits/ops/gradients/bias.hpp", "include/ttl/nn/bits/ops/gradients/conv2d.hpp", "include/ttl/nn/bits/ops/gradients/activation.hpp", "include/ttl/nn/bits/ops/gradients/softmax.hpp", "include/ttl/nn/bits/ops/gradients/xentropy.hpp", "include/ttl/nn/bits/ops/gradients/reshape.hpp", "include/ttl/nn/bits/ops/gradients/add.hpp", "include/ttl/nn/bits/ops/gradients/mul.hpp", "examples/example_train_mnist_slp.cpp: train_slp_model"]}
{"id": "C125", "title": "The small example programs run to the end", "statement": "The programs that chain convolutions and poolings (operators, and layers followed by a dense layer and softmax) complete on every batch of images whose sides are multiples of four, whatever their uninitialised weights hold, with outputs of the advertised shapes: size-keeping (or shrinking by two) convolutions, the greatest values of 4 x 4 tiles, an affine map and its softmax; the layers returned hold the weights used and all memory is released. Other sides are refused with an exception.", "quantifier": "all batch sizes, channels, sides up to 2^31 pixels per image, all contents of memory", "why_tests_cant": "all contents of uninitialised memory; whole programs", "anchors": ["examples/example_mlp.cpp: example_mlp", "examples/example_layer_mlp.cpp: example_mlp", "examples/example_1.cpp: examples", "include/ttl/nn/bits/ops/conv2d.hpp", "include/ttl/nn/bits/ops/pool.hpp", "include/ttl/nn/bits/layers/conv.hpp", "include/ttl/nn/bits/layers/pool.hpp"]}
{"id": "C126", "title": "The one-dimensional sample follows the project's written definition", "statement": "For every valid configuration in the sense of doc/linear-sample.tex the shape function of the 1-d convolution returns m, and the result is what the document says: the input with zeros prepended and appended, the kernel with r-1 zeros inserted between adjacent elements, convolved without further padding at stride s; the 1-d im2col returns the elements of the padded input under the taps. Without a valid configuration the size computation throws.", "quantifier": "all configurations within the integer range, all inputs and kernels over a commutative semiring", "why_tests_cant": "the written definition against the code for all configurations", "anchors": ["doc/linear-sample.tex", "include/ttl/nn/bits/ops/conv1d.hpp", "include/ttl/nn/bits/ops/im2col1d.hpp", "include/ttl/nn/bits/traits/linear_sample.hpp"]}
{"id": "C127", "title": "Rounding error of probabilities, losses and normalisation", "statement": "A floating-point softmax is the exact one (not below the bound eps) times a factor between 1/q and q, where q = exp(2h + u(D+2h)) / ((1-e)(1-u)^(n+1)) for scores off by at most h and spread D; the class read off it is the exact one where its probability is more than q^2 times the others. The cross entropy of given positive predictions is within ((1+l)(1+u)^(n+1) - 1) sum |p log y| of the exact one. A batch normalisation layer (activation relu or none) is within an explicit bound of the exact one. The bounds for softmax and batch normalisation layers compose with those of dense, convolution and pooling layers.", "quantifier": "all shapes, contents, input errors, roundings of relative error u < 1, exponential, logarithm and square root of relative errors e, l and w", "why_tests_cant": "a bound for all inputs", "anchors": ["include/ttl/nn/bits/ops/activation.hpp", "include/ttl/nn/bits/kernels/cpu/activation.hpp", "include/ttl/nn/bits/ops/loss.hpp", "include/ttl/nn/bits/kernels/cpu/loss.hpp", "include/ttl/nn/bits/layers/bn.hpp", "include/ttl/nn/bits/kernels/cpu/normalization.hpp", "include/ttl/nn/bits/layers/activation.hpp"]}
{"id": "C128", "title": "Channel concatenation around convolution and pooling", "statement": "Convolving concatenated images equals adding up the convolutions of the images with the parts of the filter that meet their channels. Concatenating the results of several convolutions of the same images equals one convolution with all their filters, bit for bit in any arithmetic. Pooling concatenated images equals concatenating the pooled images, with any padding policy.", "quantifier": "all shapes, numbers of channels and filters, geometries, contents, both layouts", "why_tests_cant": "equality of two networks for all inputs", "anchors": ["include/ttl/nn/bits/layers/concat.hpp", "include/ttl/nn/bits/kernels/cpu/concat.hpp", "include/ttl/nn/bits/ops/conv2d.hpp", "include/ttl/nn/bits/kernels/cpu/conv2d.hpp", "include/ttl/nn/bits/layers/pool.hpp"]}
{"id": "C129", "title": "Training on real numbers converges", "statement": "For the training program of the examples, in exact arithmetic and while no predicted probability is below the clipping bound of softmax: (a) a step whose rate times the batch size times (largest squared input length + 1) is at most 2 never raises the loss of its batch, and lowers it strictly if the product is below 2 and the step changes a parameter; (b) a step changes nothing exactly when the parameters have the least loss possible on the batch; (c) N steps on one batch at half that rate come within (squared distance of the start from any parameters)/(2*rate*batch*N) of the loss of these parameters; (d) the losses printed during a pass over a data set sum to at most those of any fixed parameters on the same batches, plus the squared distance of these from the start over 2*rate*batch, plus rate*batch*(largest squared input length + 1) for each batch.", "quantifier": "for all batch sizes, numbers of inputs and classes, inputs, labels, starting parameters, rates, numbers of steps and competing parameters", "why_tests_cant": "Tests see the loss fall on one data set with one seed; they cannot show that it falls for all of them, nor compare with all possible parameters.", "anchors": ["examples/example_train_mnist_slp.cpp: train_slp_model, slp", "include/ttl/nn/bits/ops/gradients/xentropy.hpp", "include/ttl/nn/bits/ops/gradients/softmax.hpp"]}
{"id": "C130", "title": "Small integers are exact in floating point", "statement": "If the element type is a floating-point type that holds all integers up to M exactly, and the sums of the absolute values of the products (and the bias) do not exceed M, then matrix products, row and column sums, convolutions in both layouts, dense and convolution layers with or without relu, max poolings, and chains of these layers give exactly the integer result, in spite of rounding at every step. A 24-bit significand holds the integers up to 2^24.", "quantifier": "all shapes, geometries, integer contents within the bound, all roundings that keep the integers up to M", "why_tests_cant": "the absence of any rounding for all contents within a bound", "anchors": ["include/ttl/nn/bits/kernels/cpu/blas.hpp", "include/ttl/nn/bits/ops/conv2d.hpp", "include/ttl/nn/bits/kernels/cpu/conv2d.hpp", "include/ttl/nn/bits/layers/dense.hpp", "include/ttl/nn/bits/layers/conv.hpp", "include/ttl/nn/bits/layers/pool.hpp", "include/ttl/nn/bits/kernels/cpu/reduce.hpp"]}
{"id": "C131", "title": "Unsigned elements compute modulo a power of two", "statement": "With unsigned elements of w bits, matrix products, row and column sums, convolutions in both layouts and dense layers give the exact result over the natural numbers modulo 2^w; intermediate wrapping does no harm.", "quantifier": "all shapes, geometries and contents, all widths w whose arithmetic is unsigned", "why_tests_cant": "all contents including those that wrap", "anchors": ["include/ttl/nn/bits/kernels/cpu/blas.hpp", "include/ttl/nn/bits/ops/conv2d.hpp", "include/ttl/nn/bits/kernels/cpu/conv2d.hpp", "include/ttl/nn/bits/layers/dense.hpp", "include/ttl/nn/bits/kernels/cpu/reduce.hpp"]}
{"id": "C132", "title": "What the unit tests assert on a few sizes holds for all", "statement": "The parametric assertions of the project's unit tests hold for all parameters: a line of (m-1)s + (k-1)r + 1 elements has m windows, the first tap is the first element and the last tap the last, no other tap is at either end, and all m*k taps are inside; products of constant matrices are the constant l*a*b in all five routines; scattering gathered columns multiplies each of distinct nonzero elements by the number of times it occurs in the columns; concatenated channels are a rearrangement of the inputs; moving an argument of add by its gradient moves the sum by the incoming gradient; max pooling of an image that increases to the right and downwards returns the last element of each window; softmax of a constant row of k elements is 1/k; cross entropy of k ones against e is -k.", "quantifier": "all kernel sizes, strides, rates, window counts, matrix sizes, constants, channel counts and contents", "why_tests_cant": "the tests try a few sizes; the assertions are meant for all", "anchors": ["tests/test_linear_sample_trait.cpp: test_linear_sample_ksr_nm", "tests/test_plain_la_engine.cpp", "tests/test_conv1d.cpp: test_col2im1d", "tests/test_concat.cpp", "tests/test_affine_grad.cpp", "tests/test_pool.cpp", "tests/test_softmax.cpp: test_softmax", "tests/test_xentropy.cpp", "include/ttl/nn/bits/traits/linear_sample.hpp"]}
{"id": "C133", "title": "When signed elements overflow", "statement": "With elements of type int32_t or int64_t, where overflow is undefined, an element of a matrix product, of the row or column sums, of a convolution in either layout or of a dense layer without activation is computed without overflow, and is exact, if and only if every product and every sum of the first products (in the order of the loops; the bias last) is a value of the type. It is enough that the absolute values of the products sum up to less than 2^(w-1). It is not enough that the result is a value of the type.", "quantifier": "all shapes, geometries and contents, all widths", "why_tests_cant": "all contents; undefined behaviour need not show in a test", "anchors": ["include/ttl/nn/bits/kernels/cpu/blas.hpp", "include/ttl/nn/bits/ops/conv2d.hpp", "include/ttl/nn/bits/kernels/cpu/conv2d.hpp", "include/ttl/nn/bits/layers/dense.hpp", "include/ttl/nn/bits/kernels/cpu/reduce.hpp", "include/ttl/nn/bits/engines/plain_impl.hpp"]}
{"id": "C134", "title": "Averages of integers of every type", "statement": "Mean pooling of images and row means with a built-in integer element type: for an unsigned type of w bits every result is the sum modulo 2^w divided by the count, which is the mean rounded down exactly when the sum is below 2^w (so four white pixels of an 8-bit image average to 63); for a signed type wider than int it is the mean rounded towards zero, for sums of either sign, as long as the absolute values sum to a value of the type; for a type narrower than int it is the mean rounded down if the sum is a non-negative value of the type or the count is a power of two, and may have the wrong sign otherwise.", "quantifier": "all integer types, geometries with a pixel in every window, contents", "why_tests_cant": "all contents of all element types", "anchors": ["include/ttl/nn/bits/kernels/cpu/pool.hpp: mean_accumulator", "include/ttl/nn/bits/ops/summary.hpp: mean, sum", "include/ttl/nn/bits/ops/reduce.hpp: mean"]}
{"id": "C135", "title": "Sums of products in float and double", "statement": "With elements in a binary format of IEEE 754 (rounding to nearest, ties to even, gradual underflow, overflow to infinity, NaN), let M be the exact sum of the absolute values of the products (and the bias) and E = ((1+u)^(n+1) - 1) M + 2n*eta*(1+u)^(n+1) for n terms, u = 2^-p and eta half the least positive number. If M + E is below the overflow limit, then matrix products, row and column sums, convolutions in both layouts and dense layers have only finite elements, each within E of the exact one, whether or not intermediate results underflow. For float with fewer than 2^23 terms and M up to 2^126 this always holds, with E at most (n+1) 2^-23 M + 2n 2^-149. A product whose exact value is 0 can be NaN if the condition fails, and no bound relative to the result holds without the underflow term.", "quantifier": "all formats, shapes, geometries, contents", "why_tests_cant": "a bound for all contents, including those that underflow", "anchors": ["include/ttl/nn/bits/kernels/cpu/blas.hpp", "include/ttl/nn/bits/ops/conv2d.hpp", "include/ttl/nn/bits/kernels/cpu/conv2d.hpp", "include/ttl/nn/bits/layers/dense.hpp", "include/ttl/nn/bits/kernels/cpu/reduce.hpp", "include/ttl/nn/bits/engines/plain_impl.hpp"]}
{"id": "C136", "title": "Networks in float and double", "statement": "With elements in a binary format of IEEE 754, with rounding, underflow, overflow and NaN: for dense layers, convolution layers in both layouts (without activation or with relu), max and mean pooling layers in both layouts, reshaping, and any composition of these, there is a condition on the exact network (sizes of the exact intermediate results and error bounds below the overflow limit) under which every element is finite and within an explicit bound of the exact one; the bounds and conditions compose along the network. If in every row the exact score of one class exceeds the others by more than twice the bound, that class is chosen.", "quantifier": "all formats, shapes, geometries, weights and inputs", "why_tests_cant": "a bound for all inputs and networks", "anchors": ["include/ttl/nn/bits/layers/dense.hpp", "include/ttl/nn/bits/layers/conv.hpp", "include/ttl/nn/bits/layers/pool.hpp", "include/ttl/nn/bits/kernels/cpu/pool.hpp", "include/ttl/nn/bits/kernels/cpu/utility.hpp", "include/ttl/nn/bits/models/sequential.hpp"]}
{"id": "C137", "title": "Reductions act along the last axis at any rank", "statement": "For tensors of any rank: argmax gives, at every index of the leading axes, the position of the first maximum along the last axis; onehot(k) puts a 1 where the position along a new last axis is the label; argmax of onehot gives back all labels below k; mean gives the mean along the last axis, summed from the left; similarity is the share of indices at which two tensors agree. The shape functions remove and append the last axis accordingly.", "quantifier": "all ranks, shapes, contents and label types", "why_tests_cant": "all ranks and shapes; the tests use ranks 1 and 2", "anchors": ["include/ttl/nn/bits/ops/utility.hpp: argmax, onehot, similarity", "include/ttl/nn/bits/ops/reduce.hpp: mean", "include/ttl/nn/bits/kernels/cpu/utility.hpp"]}
{"id": "C138", "title": "Matrix products of the cblas engine, whatever the order of summation", "statement": "A BLAS library may add up the products of an entry in any order, differently for each entry, with several accumulators and with fused multiply-adds. In exact arithmetic the cblas engine still writes the same matrices and vectors as the built-in engine. In a binary format of IEEE 754, with at most z accumulators that start with zero, n terms and M the sum of the absolute values of the products, all entries are finite and within E = ((1+u)^(n+z) - 1) M + (2n+z-1)*eta*(1+u)^(n+z) of the exact ones if M + E is below the overflow limit; so the two engines differ by at most 2E (z = 1). Products of integers with M at most 2^p are exact and equal in both engines. In general the engines do differ.", "quantifier": "all orders and groupings of the sum, uses of fused operations, formats, shapes, contents", "why_tests_cant": "the order depends on the library, the machine and the sizes; tests see one of them", "anchors": ["include/ttl/nn/bits/engines/cblas_impl.hpp: mm, mmt, mtm, mv, vm", "include/ttl/nn/bits/engines/plain_impl.hpp", "include/ttl/nn/bits/engines/linag.hpp"]}
{"id": "C139", "title": "Gradients of convolutions are convolutions", "statement": "The gradient of a convolution with respect to the filter is itself a convolution: of the images, with batch and channel exchanged, and the output gradient as filter, in which stride and rate have changed places. The gradient with respect to the image is the convolution with stride 1, the same rate and the complementary padding, of the output gradient with stride - 1 zeros inserted between its pixels, and the filter turned by 180 degrees with its channels in and out exchanged; with stride 1 no zeros are inserted. So a backward pass can be computed with the forward operator.", "quantifier": "all sizes, strides, rates, paddings (for the image: not wider than the extent of the filter), batches, channels, contents, initial buffers", "why_tests_cant": "an identity between different operators on all geometries; the tests check gradients on one geometry each", "anchors": ["include/ttl/nn/bits/ops/gradients/conv2d.hpp: conv<nhwc,rscd,0>, conv<nhwc,rscd,1>", "include/ttl/nn/bits/kernels/cpu/conv2d.hpp"]}
{"id": "C140", "title": "Which size fields of archive headers are understood", "statement": "A size field denotes a number if it consists of white space, perhaps a sign, at least one octal digit, and then nothing or anything that is not an octal digit (so 178 is 15, and 8 is no number). It denotes at most one. A member is found with that size whatever the form of its field. If any header reached has a field that denotes no number, readtar throws std::invalid_argument for every name, also for those of members in front of it, and leaves the tensor unchanged.", "quantifier": "all archives, all twelve-byte fields, all names", "why_tests_cant": "all possible fields", "anchors": ["include/ttl/nn/bits/ops/io_tar.hpp: parse_tar_header, make_tar_index", "include/ttl/nn/bits/ops/io.hpp: readtar"]}
{"id": "C141", "title": "Outputs depend on the pixels under their window only, bit for bit", "statement": "Two convolutions with the same filter, on images of any sizes and paddings, whose windows at two places hold the same pixels, have bitwise the same results there, in any arithmetic (also in floating point, where the order of summation matters). So convolving a part of an image gives the part of the result, also if the image is padded and the part is inside; images shifted by multiples of the stride, with zeros moved in, give results shifted by as many windows; and max, mean or any other pooling (without padding in front) of a part gives the part of the pooled image.", "quantifier": "all images, filters, geometries, batch sizes, parts, shifts, both layouts, any element type", "why_tests_cant": "equality of two runs for all contents; bitwise equality of floating-point results depends on the order of operations", "anchors": ["include/ttl/nn/bits/ops/conv2d.hpp", "include/ttl/nn/bits/kernels/cpu/conv2d.hpp", "include/ttl/nn/bits/kernels/cpu/im2col.hpp", "include/ttl/nn/bits/kernels/cpu/pool.hpp", "include/ttl/nn/bits/ops/pool.hpp"]}
{"id": "C142", "title": "Networks without dense layers evaluate every patch", "statement": "A sequential model of convolution layers (any pointwise activation), pooling layers, batch normalisation and activation layers that need no padding, run on a large image, gives at every place exactly what it gives for the patch seen from there, run on its own; neighbouring results see patches at a distance of the product of the strides, and a patch has 1 + sum over the layers of (extent of the window - 1) times the product of the strides in front. So one run replaces a run per patch, bit for bit.", "quantifier": "all images tiled by the patches, batch sizes, numbers of layers, kernel sizes, strides, rates, weights, both layouts, any arithmetic", "why_tests_cant": "equality of many runs with one for all images and networks", "anchors": ["include/ttl/nn/bits/layers/conv.hpp", "include/ttl/nn/bits/layers/pool.hpp", "include/ttl/nn/bits/layers/bn.hpp", "include/ttl/nn/bits/layers/activation.hpp", "include/ttl/nn/bits/models/sequential.hpp"]}
{"id": "C143", "title": "Gradients add up over the examples of a batch", "statement": "The gradients of matmul, add_bias (matrices and nhwc images) and conv with respect to the matrix, bias or filter for a batch are the sums of those for its two parts, and do not depend on the order of the examples. A training step on a batch changes the parameters by the sum of the changes of steps on its parts from the same parameters, and a step on reordered examples gives the same parameters and prints the same loss. So large batches can be processed in pieces.", "quantifier": "all batch sizes and parts, orders, shapes, geometries, contents, exact arithmetic", "why_tests_cant": "equality of several runs for all contents", "anchors": ["include/ttl/nn/bits/ops/gradients/matmul.hpp", "include/ttl/nn/bits/ops/gradients/bias.hpp", "include/ttl/nn/bits/ops/gradients/conv2d.hpp", "examples/example_train_mnist_slp.cpp: train_slp_model"]}
{"id": "C144", "title": "Networks amplify changes of the input by at most a factor read off the weights", "statement": "In exact arithmetic, if no element of an example moves by more than e, no element of its output moves by more than L times e: for a dense layer L is the greatest sum of absolute weights of an output, for a convolution layer of a filter, for batch normalisation the greatest quotient of scale and deviation, 1 for pooling and for relu, 1/2 for softmax; along a network the factors multiply, and for dense layers no smaller factor works. So a class whose score exceeds the others by more than 2 L e is predicted for every input that differs by at most e.", "quantifier": "all layer sizes, geometries, layouts, batch sizes, parameters, inputs, changes, networks", "why_tests_cant": "relates pairs of runs for infinitely many inputs", "anchors": ["include/ttl/nn/bits/layers/dense.hpp", "include/ttl/nn/bits/layers/conv.hpp", "include/ttl/nn/bits/layers/pool.hpp", "include/ttl/nn/bits/layers/bn.hpp", "include/ttl/nn/bits/layers/activation.hpp", "include/ttl/nn/bits/models/sequential.hpp", "include/ttl/nn/bits/kernels/cpu/utility.hpp: argmax"]}
{"id": "C145", "title": "A training step in rounded arithmetic", "statement": "Every result of the step of the training example is computed with a relative rounding error of at most u (the exponential, logarithm and division by the batch size with their own relative errors). Then the new weights, the new bias and the printed loss each differ from those of the exact step from the same parameters by at most an explicit bound: the predictions by a factor q that depends on the rounding errors of the scores and on their spread, the gradient at a score by stepErr = (1+u)^m (|P-t| + (q-1)P) - |P-t|, and a weight by a rounding of itself and the sum of those over the batch. And if the rate is at most 1/(n(r+1)), r bounding the squared length of the inputs, and no prediction is clipped, then the exact loss of the computed parameters is below that of the old ones whenever the exact step is longer than the bounds, by at least half the difference of their squares over n times the rate.", "quantifier": "all batch sizes, numbers of inputs and classes, inputs, labels, parameters, rates, rounding functions", "why_tests_cant": "a bound for all contents and all rounding functions; a test sees a few runs of one arithmetic", "anchors": ["examples/example_train_mnist_slp.cpp: train_slp_model", "include/ttl/nn/bits/ops/gradients/softmax.hpp", "include/ttl/nn/bits/ops/gradients/xentropy.hpp", "include/ttl/nn/bits/ops/gradients/matmul.hpp", "include/ttl/nn/bits/ops/gradients/bias.hpp", "include/ttl/nn/bits/kernels/cpu/activation.hpp: softmax", "include/ttl/nn/bits/kernels/cpu/loss.hpp: xentropy"]}
{"id": "C146", "title": "Hidden units can be reordered, rescaled, merged and pruned", "statement": "In exact arithmetic, two layers in a row (dense or convolution, with bias) give the same output as the same layers with another hidden layer if every unit (filter) of the first is a multiple, by a factor that the activation lets pass, of a unit of the other, and the leaving weights of each unit of the other are the sums of those of its copies times their factors. relu lets every factor pass that is not negative. So hidden units can be put in any order, rescaled, merged if they are equal, and left out if their leaving weights are zero.", "quantifier": "all sizes, kernel sizes, strides, rates, paddings, activations, parameters, inputs, maps between the units, factors, both layouts", "why_tests_cant": "The number of networks that compute the same function is infinite; a test compares two.", "anchors": ["include/ttl/nn/bits/layers/dense.hpp: dense::operator()", "include/ttl/nn/bits/layers/conv.hpp: conv::operator()", "include/ttl/nn/bits/kernels/cpu/activation.hpp: relu", "include/ttl/nn/bits/kernels/cpu/conv2d.hpp: conv2d", "include/ttl/nn/bits/kernels/cpu/blas.hpp: mm"]}
{"id": "C147", "title": "The printed loss bounds the errors, and separable images are learned", "statement": "For the training program of the examples, in exact arithmetic and with a clipping bound of softmax of at most 1/2: (a) the loss that a training step prints is at least log 2 times the fraction of the batch that the parameters before the step classify wrongly, as the accuracy of the same program counts them; (b) if some parameters classify every image of a batch with the score of the label at least 1 above the others, then N steps on the batch, from any starting parameters, end with an accuracy of 1, if the rate times the batch size times (largest squared input length + 1) is at most 1, nothing is clipped on the way, and rate*N is at least 4 times the squared distance of the start from log(2*images*classes) times the separating parameters; (c) in one pass over a data set the fractions of errors on every batch, judged with the parameters before the batch is used, sum to at most 1/log 2 times the bound on the printed losses of C129, for any fixed parameters to compare with.", "quantifier": "for all batch sizes, numbers of inputs and classes below 256, images, labels, starting parameters, rates, separating parameters and numbers of steps", "why_tests_cant": "Tests see the accuracy of one data set and one seed; the guarantee is for every separable batch and every start.", "anchors": ["examples/example_train_mnist_slp.cpp: train_slp_model, test_slp_model, slp", "include/ttl/nn/bits/ops/gradients/xentropy.hpp", "include/ttl/nn/bits/ops/gradients/softmax.hpp", "include/ttl/nn/bits/ops/utility.hpp: similarity, argmax"]}
{"id": "C148", "title": "A normalisation of the inputs folds into the first layer", "statement": "In exact arithmetic, a dense layer applied to inputs of which each is multiplied by a factor and moved by an offset gives the output of a dense layer with changed weights (multiplied by the factors) and biases (moved by the weighted sums of the offsets) for the inputs as they were. The same holds for convolution layers and a factor and offset for every channel, if there is no padding or all offsets are zero; so a batch normalisation layer without activation in front of a convolution layer without padding can be folded into it. With padding and offsets it fails: there is a layer, an image and an offset such that no filter and no bias give the same result.", "quantifier": "all sizes, kernel sizes, strides, rates, activations, parameters, inputs, factors and offsets, both layouts", "why_tests_cant": "equality of two networks for all inputs", "anchors": ["include/ttl/nn/bits/layers/dense.hpp", "include/ttl/nn/bits/layers/conv.hpp", "include/ttl/nn/bits/layers/bn.hpp", "examples/example_train_mnist_slp.cpp: slp"]}
{"id": "C149", "title": "Relations between element types carry through networks", "statement": "The library is generic in the element type. Let two networks of the same layers use two element types, and let a relation between their elements be kept by zero, by sums, by products with the (related) weights and by the activations. Then related inputs give related outputs, element by element, through dense layers, convolution layers (both layouts, any padding), max and mean pooling, activations and any sequence of them; no law of arithmetic is needed. So (a) converting the input by a map that keeps sums and products and running the network is running it and converting the output; (b) with rounding that is monotone, a network whose weights are not negative gives greater outputs for greater inputs, bit for bit, and layers with weights that are not positive reverse the order; (c) a run on intervals, rounded outwards, encloses what the network computes for every input in the intervals, with its rounding errors, and if the interval of one class lies above all others every such input gets this class.", "quantifier": "all element types, relations, sizes, kernel sizes, strides, rates, paddings, weights, inputs and layer sequences", "why_tests_cant": "relates two instantiations of templates on all inputs", "anchors": ["include/ttl/nn/bits/layers/dense.hpp", "include/ttl/nn/bits/layers/conv.hpp", "include/ttl/nn/bits/layers/pool.hpp", "include/ttl/nn/bits/layers/activation.hpp", "include/ttl/nn/bits/models/sequential.hpp", "include/ttl/nn/bits/kernels/cpu/pool.hpp"]}
{"id": "C150", "title": "Networks on dual numbers compute directional derivatives, also at kinks and ties", "statement": "The library is generic in the element type and has no automatic differentiation of layers. Instantiate it with dual numbers: pairs of a value and a derivative, with the sum and product rules, compared by value and at equal values by derivative. If the inputs and the weights move along curves with one-sided derivatives, the run on dual numbers gives the value and the one-sided derivative of every output, for dense layers, convolution layers (both layouts, any padding), max pooling (also when several pixels are greatest), mean pooling, relu (also at zero), differentiable activations and any sequence of them. In particular one run on x + eps v gives the outputs at x and the limits of the difference quotients in direction v.", "quantifier": "all networks of these layers, sizes, kernel sizes, strides, rates, paddings, weights, inputs and curves through them", "why_tests_cant": "derivatives are limits; a test compares finite differences at a few points and cannot see kinks", "anchors": ["include/ttl/nn/bits/layers/dense.hpp", "include/ttl/nn/bits/layers/conv.hpp", "include/ttl/nn/bits/layers/pool.hpp", "include/ttl/nn/bits/layers/activation.hpp", "include/ttl/nn/bits/models/sequential.hpp", "include/ttl/nn/bits/kernels/cpu/pool.hpp", "include/ttl/nn/bits/kernels/cpu/activation.hpp: relu"]}
{"id": "C151", "title": "Adding up the gradients of all uses gives the gradient of a program that shares tensors", "statement": "The library has no tape: a user who uses a tensor in several places (a residual connection, shared weights, x*x) calls the gradient operator of each use and adds the results with ops::add. In exact arithmetic this is right: for any program of operators with one or two operands, each reading any earlier tensors (also the same tensor twice), if the gradient operator of each call is right for that operand alone, then the backward pass, which adds every contribution in place, computes the gradient of the whole program in every tensor it starts from; so for a loss of any result and each parameter tensor, what the pass leaves for that tensor is the gradient of the loss in it. matmul, add, mul, add_bias (matrices and nhwc images) and nhwc conv meet the condition at every point, whatever the tensors they write to held before.", "quantifier": "all programs of these operators, with any sharing; all shapes, kernel sizes, strides, rates, paddings, values, losses and previous contents of the buffers", "why_tests_cant": "derivatives are limits over all inputs, and programs are unbounded", "anchors": ["include/ttl/nn/bits/ops/gradients/matmul.hpp", "include/ttl/nn/bits/ops/gradients/add.hpp", "include/ttl/nn/bits/ops/gradients/mul.hpp", "include/ttl/nn/bits/ops/gradients/bias.hpp", "include/ttl/nn/bits/ops/gradients/conv2d.hpp", "include/ttl/nn/bits/ops/elementary.hpp: add"]}
{"id": "C152", "title": "Networks without activation functions are one dense layer; networks with piecewise linear ones are one of finitely many dense layers per example", "statement": "A sequential model or a composition of dense layers, convolutions (both layouts), mean pooling and batch normalisation without activation functions, with flattening in between, gives for every batch exactly what one dense layer with suitable weights and bias gives: stacking such layers adds nothing, and no such model predicts the exclusive or of two inputs. With activation functions made of K straight lines (2 for relu) and with max pooling the output for each example is that of one of N dense layers; N multiplies along the network and is K to the number of outputs for a layer, (window + 1) to the number of outputs for max pooling. Hence such a network computes the square of at most 2N different numbers. A convolution is the dense layer whose weight from pixel (a,b,k) to output (i,j,e) is the filter's entry at the place where the window at (i,j) meets (a,b) and 0 where it does not meet it.", "quantifier": "for all semirings (fields where there is a division), shapes, strides, rates and paddings, weights, batch sizes and inputs; for all lists of layers", "why_tests_cant": "A test compares a network with another on some inputs; that a single set of weights works for all inputs and that no choice of weights computes a given function quantify over all inputs and all networks.", "anchors": ["include/ttl/nn/bits/layers/dense.hpp: dense", "include/ttl/nn/bits/layers/conv.hpp: conv", "include/ttl/nn/bits/layers/pool.hpp: pool", "include/ttl/nn/bits/layers/bn.hpp: batch_norm", "include/ttl/nn/bits/layers/activation.hpp: activation", "include/ttl/nn/bits/models/sequential.hpp: sequential"]}
{"id": "C153", "title": "Networks whose later weights are not negative are convex", "statement": "If the layers after the first have no negative weights (batch normalisation: no negative scales) and the activation functions are convex and do not fall (identity, relu), then each output for a mixture of two examples (s times the one plus t times the other, s and t not negative, s + t = 1) is at most the mixture of the outputs; so examples with an output below a threshold can be mixed without leaving it, and an example whose output is least among those nearby has the least output of all. The first layer may have any weights. This holds for dense layers, convolutions in both layouts, max and mean pooling, batch normalisation, activation layers, compositions and sequential models of them. With a negative weight after relu it fails.", "quantifier": "for all ordered fields, shapes, strides, rates and paddings, weights with the stated signs, batches, mixtures; for all lists of layers", "why_tests_cant": "Convexity compares the outputs of all pairs of inputs and all mixtures, for all weights; a test sees some points, and a network that is convex on a sample can fail elsewhere.", "anchors": ["include/ttl/nn/bits/layers/dense.hpp: dense", "include/ttl/nn/bits/layers/conv.hpp: conv", "include/ttl/nn/bits/layers/pool.hpp: pool", "include/ttl/nn/bits/layers/bn.hpp: batch_norm", "include/ttl/nn/bits/layers/activation.hpp: activation", "include/ttl/nn/bits/models/sequential.hpp: sequential"]}
{"id": "C154", "title": "Scaling by powers of two is exact in float and double", "statement": "On the numbers of IEEE 754 (rounding to nearest even, subnormal numbers, overflow): if the inputs of a network of dense layers, convolutions (both layouts), max and mean pooling, relu and identity activations are multiplied by 2^i, the weights of its layers by powers of two and its biases by the product of the powers so far, every output is exactly, bit for bit, the old output multiplied by the product of all powers, although every operation rounds; and argmax gives the same classes. The condition is that in neither run the exact result of an operation, unless it is zero, is below the least normal number, or rounds to one that is too large; whether this is so can be read off one run that keeps a flag per number. The condition is needed: one dense layer with an exact weight gives 0 for an input and not 0 for four times the input.", "quantifier": "for all binary formats, powers of two of either sign, shapes, strides, rates and paddings, weights, biases and inputs; for all lists of layers", "why_tests_cant": "Equality of rounded results for all inputs and all powers; a test sees some numbers, and an accumulation in another order or a bias that is not scaled can agree on them.", "anchors": ["include/ttl/nn/bits/layers/dense.hpp: dense", "include/ttl/nn/bits/layers/conv.hpp: conv", "include/ttl/nn/bits/layers/pool.hpp: pool", "include/ttl/nn/bits/layers/activation.hpp: activation", "include/ttl/nn/bits/models/sequential.hpp: sequential", "include/ttl/nn/bits/kernels/cpu/blas.hpp", "include/ttl/nn/bits/kernels/cpu/pool.hpp", "include/ttl/nn/bits/ops/utility.hpp: argmax"]}
{"id": "C155", "title": "The helpers of the tests try all orders and recognise permutations", "statement": "The helper that calls a check with its arguments in all orders calls it with every rearrangement of the arguments, with none twice, in lexicographic order, and returns their number; for n different arguments that is n factorial. The generator of test data stores in element i the last digit of s + 7 (i + 1) for a seed s that is not negative, and leaves the seed so that the next call goes on; any ten consecutive elements are the ten digits in some order. The check for permutations answers true if and only if the elements are 0, ..., n - 1 in some order, for any n that fits the element type, and never reads or writes out of bounds; if n does not fit, the answer can be wrong: 256 equal elements of an unsigned 8-bit type pass.", "quantifier": "for all lists of arguments, with and without repetitions; for all element types, seeds and lengths; for all tensors", "why_tests_cant": "The tests rely on these helpers: if one skipped an order or accepted a tensor that is not a permutation, the tests that use it would still pass.", "anchors": ["tests/include/ttl/nn/bits/testing.hpp: test_all_permutations", "tests/include/ttl/nn/bits/testing.hpp: gen_test_tensor", "tests/include/ttl/nn/bits/testing.hpp: fast_is_permutation"]}
{"id": "C156", "title": "Networks do not depend on the layout of images", "statement": "A network of convolution, pooling, batch normalisation and activation layers written for images with channels last (nhwc, filters rscd), and the same network written for channels first (nchw, filters dcrs) with the filters transposed, compute the same: transposing the output of the one is the output of the other for the transposed input, for every batch. If a flattening and a dense layer follow, the rows of the dense weights are reordered like the pixels, and then both networks return the same tensor, whatever layers follow. Pooling, normalisation and activation layers agree bit for bit for every element type, as do convolutions with one channel or a 1 by 1 kernel if multiplication is commutative, as it is for IEEE numbers. Convolutions in general agree in exact arithmetic only: in float and double, a 1 by 2 kernel of ones over two pixels with two channels gives 0 in one layout and not 0 in the other.", "quantifier": "for all numbers of layers, shapes, strides, rates and paddings, weights, biases, statistics, accumulators that always give a result, and batches; for all element types where stated", "why_tests_cant": "A test compares the layouts for a few shapes and weights; agreement of whole networks for all weights, and whether it is bit for bit, needs the order of every summation.", "anchors": ["include/ttl/nn/bits/layers/conv.hpp: conv", "include/ttl/nn/bits/layers/pool.hpp: pool", "include/ttl/nn/bits/layers/bn.hpp: batch_norm", "include/ttl/nn/bits/layers/activation.hpp: activation", "include/ttl/nn/bits/layers/dense.hpp: dense", "include/ttl/nn/bits/models/sequential.hpp: sequential", "include/ttl/nn/bits/ops/transpose.hpp"]}
{"id": "C157", "title": "The backward pass of a network's calls and its run on dual numbers give the same derivatives", "statement": "There are two ways to differentiate a network of layers: run it on dual numbers (value and derivative), or call the operators its layers consist of and then their gradient operators in the reverse order. A dense layer is matmul, add_bias and the activation's calls, an nhwc convolution layer is conv, add_bias and the activation's calls, and a sequential model is the concatenation: on every input the layers return what the chain of calls computes, whatever the tensors held before. Where every relu sees no zero, the two agree: for all weightings gy of the outputs and all directions v, the gy-weighted sum of the derivatives that the run on x + eps v gives equals the product of v with the gradient that the backward pass gives for gy, for the inputs and for the weights of a dense layer anywhere in the network; and the backward pass gives the gradient of every differentiable loss of the model's outputs. At a zero of relu the two differ: 1 from dual numbers, 0 from the gradient operator.", "quantifier": "all networks of these layers, batches, sizes, geometries, weights, inputs, directions, weightings, losses and previous contents of buffers", "why_tests_cant": "both sides are derivatives of arbitrary compositions over all real inputs; a test compares them at a few points of one network", "anchors": ["include/ttl/nn/bits/layers/dense.hpp", "include/ttl/nn/bits/layers/conv.hpp", "include/ttl/nn/bits/layers/activation.hpp", "include/ttl/nn/bits/models/sequential.hpp", "include/ttl/nn/bits/ops/gradients/matmul.hpp", "include/ttl/nn/bits/ops/gradients/bias.hpp", "include/ttl/nn/bits/ops/gradients/conv2d.hpp", "include/ttl/nn/bits/ops/gradients/activation.hpp"]}
{"id": "C158", "title": "Negative paddings: what is cropped and what is silently blanked", "statement": "The functions that build paddings accept negative numbers, and the code carries a note that they are not supported. All shape computations (im2col, conv2d, pooling, im2col1d, conv1d) accept them and return the shape of the cropped input. im2col1d and conv1d, whose dimension type is signed, read exactly the cropped line. The two-dimensional operators store paddings as unsigned numbers: if only the bottom or right padding is negative, im2col, conv2d in both layouts and the pooling kernels read exactly the cropped image; if the top or left padding is negative, im2col and conv2d return zeros whatever the image and the filter, max pooling returns the least value of the type and mean pooling zero divided by zero (undefined for int32_t). Nothing is reported in any of these cases.", "quantifier": "For all kernel sizes, strides, rates, image sizes and paddings of type int (of either sign) whose windows cover the padded or cropped axis exactly, with padded length below 2^31; all batch sizes and channels, all images, filters and element types.", "why_tests_cant": "A test with a negative padding on one side says nothing about the other sides or about one-dimensional operators, and a blank result needs an argument about all positions in modular arithmetic.", "anchors": ["include/ttl/nn/bits/traits/padding.hpp: linear_padding_trait", "include/ttl/nn/bits/traits/multi_linear_sample.hpp: padding_1d, padding_simple, padding", "include/ttl/nn/bits/ops/conv2d_trait.hpp: linear_conv_trait, conv_trait", "include/ttl/nn/bits/ops/pool2d_trait.hpp: pool_trait", "include/ttl/nn/bits/kernels/cpu/im2col.hpp: im2col_2d, im2col_idx_map", "include/ttl/nn/bits/kernels/cpu/conv2d.hpp: conv2d", "include/ttl/nn/bits/kernels/cpu/pool.hpp: pool", "include/ttl/nn/bits/ops/impl/im2col1d.hpp: im2col1d::operator()", "include/ttl/nn/bits/ops/impl/conv1d.hpp: conv1d::operator()"]}
{"id": "C159", "title": "Casts between built-in numbers, and the scalar relu", "statement": "Casting a tensor converts every element as C++ does, and one element that cannot be converted makes the whole cast undefined. Integers cast to integers keep their value modulo 2^bits, and the value itself exactly if it is one of the type. A floating number cast to an integer type gives its integral part and is defined exactly for the numbers between the least value minus one and the greatest plus one; NaN and infinities are undefined. An integer cast to a floating type becomes the nearest number of the type; casting back gives the integer if and only if it is a number of the floating type: always for 32 bit integers and double, not for float, where the 64 greatest int32 values are undefined and others are rounded with relative error at most 2^-24. Casting to a wider floating type and back is the identity, NaN and infinities included; casting to a narrower one rounds to nearest or overflows to an infinity, can only move the argmax to an earlier position whose element became equal, and keeps the class if no element became equal. The public relu_scalar goes through double: it equals relu for floating types and integers of up to 53 bits, but for 64 bit integers it rounds positive numbers to the nearest double (2^53 + 1 becomes 2^53) and is undefined for the 512 greatest int64 and the 1024 greatest uint64 values.", "quantifier": "all integer types, binary floating formats, values (NaN and infinities included) and lengths", "why_tests_cant": "2^64 values and all formats; the boundary where a round trip becomes undefined is a handful of values", "anchors": ["include/ttl/nn/bits/kernels/cpu/utility.hpp: cast", "include/ttl/nn/bits/ops/utility.hpp: cast", "include/ttl/nn/bits/ops/activation.hpp: relu_scalar"]}
{"id": "C160", "title": "Networks with quantised weights on integers: error and freedom from overflow", "statement": "The layers are templates, so a network can run on signed integers, with integer weights V and biases that stand for real ones: the real weight is within delta of t V, the real input within epsilon of s z, where t and s are scales. If the greatest input M times the greatest sum of absolute weights of an output, plus its bias, is a value of the type, a dense or convolution layer on integers never overflows, and its outputs times s t are within t epsilon sum|V| + m (s M + epsilon) delta + beta of the real layer's, where m is the number of weights per output. relu and max pooling keep scale and error, a division by d (rounding towards zero, as in C++) multiplies the scale by d and adds at most s (d - 1), mean pooling adds at most s. So errors and magnitudes add up layer by layer through a sequential model. If in a row of the output one integer exceeds the others by more than twice the error, argmax gives the same class for the integers and the real numbers; with exact weights and inputs it always does.", "quantifier": "all networks of these layers, all weights, scales, error bounds, inputs, batches, geometries and integer widths; pooling windows that hold a pixel", "why_tests_cant": "overflow and accuracy over all inputs and weights of a network are statements about all real numbers near the integers; a test tries a few", "anchors": ["include/ttl/nn/bits/layers/dense.hpp: dense", "include/ttl/nn/bits/layers/conv.hpp: conv", "include/ttl/nn/bits/layers/pool.hpp: pool", "include/ttl/nn/bits/layers/activation.hpp: activation", "include/ttl/nn/bits/models/sequential.hpp: sequential", "include/ttl/nn/bits/kernels/cpu/blas.hpp", "include/ttl/nn/bits/kernels/cpu/pool.hpp: mean_accumulator", "include/ttl/nn/bits/ops/utility.hpp: argmax"]}
{"id": "C161", "title": "What the comparisons of the test programs accept", "statement": "The tests compare tensors with assert_tensor_eq. For float, two elements pass exactly if neither is NaN and at most four float values are passed on the way from one to the other: what passes is within 2^-21 of the greater number (or four of the least positive numbers), everything within 5*2^-25 of it passes, the order does not matter, the two zeros pass and so do the greatest finite number and infinity, a NaN does not pass against itself, and what passes against what passes need not pass. For double the code uses the comparison of float: doubles that round to the same float pass, so a double within 2^-25 of a float value passes against it, and all doubles from 2^128 on pass against each other; a test on doubles cannot see errors that float cannot hold. For other types exactly equal tensors pass. Different shapes are one failure; otherwise there is one failure for each element that is not accepted. bytes_eq on tensors of less than 4 GiB says exactly whether shapes and bit patterns are equal: equal NaNs pass, the two zeros do not. If the size is a multiple of 4 GiB it compares nothing and says that all tensors of the same shape are equal.", "quantifier": "all bit patterns of float and double, all shapes, lengths and contents of tensors, both byte orders", "why_tests_cant": "the tests rely on these helpers; whether a helper accepts a wrong result is not visible in a passing test", "anchors": ["tests/include/ttl/nn/bits/testing.hpp: assert_eq", "tests/include/ttl/nn/bits/testing.hpp: assert_tensor_eq", "tests/include/ttl/nn/bits/testing.hpp: view_bytes", "tests/include/ttl/nn/bits/testing.hpp: bytes_eq"]}
{"id": "C162", "title": "What the printing of the test and benchmark programs tells", "statement": "show prints vectors of less than ten and matrices of less than a hundred elements completely: the text is the list of the elements in order (a line for each row), and two vectors, or two matrices of the same shape, print the same text exactly if they are equal. Of longer vectors nothing is printed, of larger matrices and tensors of other ranks only the shape. show_tensor prints all elements, but converts each to int first: for tensors of int the text determines the tensor, for floating types all tensors with the same integral parts look the same (0.25 and 0.75 both print 0), and one NaN, infinity or number that is not below 2^31 in magnitude makes the call undefined. Decimal numbers read back as themselves. The type names of the benchmarks differ exactly if kind (floating, signed, unsigned) or size differ. The data size of a benchmark is the number of bytes of its output and inputs if that is below 2^64; the number printed is this size exactly if it is below 2 GiB.", "quantifier": "all vectors, matrices and tensors of all lengths and shapes, all elements, all ways to print elements whose texts are distinct and contain no separator, all scalar types", "why_tests_cant": "that different tensors never look the same is a statement about all pairs of tensors", "anchors": ["tests/include/ttl/experimental/bits/show.hpp", "tests/include/ttl/nn/bits/testing.hpp: show_scalar", "tests/include/ttl/nn/bits/testing.hpp: show_tensor", "benchmarks/common.hpp: scalar_type_name", "benchmarks/common.hpp: kernel_bench", "benchmarks/common.hpp: run_bench"]}
{"id": "C163", "title": "Gradients of convolutions in the arithmetic of the machine", "statement": "With no law assumed of + and * (floating point included): col2im adds to every pixel, starting from 0, the entries whose tap falls on it in a fixed order (windows row by row, then taps row by row; taps on padding add nothing, and at most one entry per tap of the kernel falls on a pixel); the gradient of a convolution by the image adds in that order sums over the output channels of gradient times weight; the gradient by the filter is one sum over images, window rows and window columns of pixel times gradient. So the results are the same bits in every run. With operations of relative error u the gradient by the image is within (1+u)^(d+1+rs) - 1 times the gradient of the absolute values of the exact one (d output channels, rs taps), the gradient by the filter within (1+u)^(windows of the batch + 1) - 1 times it. In float and double the same holds with the terms for underflow added, and nothing overflows if the gradient of the absolute values plus the bound is below the overflow limit.", "quantifier": "all images, filters, gradients, geometries, batch sizes, channels, all arithmetics (order), all roundings of relative error u, all binary formats of IEEE 754", "why_tests_cant": "a bound over all inputs and roundings; the order of thousands of additions", "anchors": ["include/ttl/nn/bits/ops/gradients/conv2d.hpp", "include/ttl/nn/bits/kernels/cpu/col2im.hpp", "include/ttl/nn/bits/ops/col2im.hpp", "include/ttl/nn/bits/ops/impl/col2im1d.hpp", "include/ttl/nn/bits/ops/im2col.hpp", "include/ttl/nn/bits/engines/plain_impl.hpp"]}
{"id": "C164", "title": "Negative paddings in col2im and in the gradients of convolution", "statement": "The shape of col2im applied to the columns of an image is the shape of the image, for paddings of either sign and in one and two dimensions. col2im1d, whose dimension type is signed, adds to every element exactly the entries whose tap falls on it, so cropped elements get 0. In two dimensions, if only the bottom or right padding is negative, col2im adds to every pixel the entries of the cropped windows that fall on it, pixels that are cropped away get 0, the gradient of conv2d by the image is this sum for gradient times weights, and the gradient by the filter is the sum over all windows of cropped pixel times gradient. If the top or left padding is negative, col2im and both gradients are 0 whatever their arguments, and nothing reports it. In all cases col2im is the transpose of im2col and both gradients are those of the map that conv2d really computes, cropping or blank.", "quantifier": "all kernel sizes, strides, rates, image sizes and paddings of type int of either sign whose windows cover the padded or cropped axis exactly, with padded length below 2^31; all batch sizes, channels, images, filters and gradients over a commutative semiring", "why_tests_cant": "whether a gradient fits a forward pass that wraps around 2^32 is a statement about all images and positions in modular arithmetic", "anchors": ["include/ttl/nn/bits/traits/padding.hpp: linear_padding_trait", "include/ttl/nn/bits/ops/col2im.hpp: col2im", "include/ttl/nn/bits/ops/col2im1d.hpp: col2im1d", "include/ttl/nn/bits/ops/impl/col2im1d.hpp: col2im1d::operator()", "include/ttl/nn/bits/kernels/cpu/col2im.hpp: col2im_2d", "include/ttl/nn/bits/ops/gradients/conv2d.hpp: conv"]}
{"id": "C165", "title": "Products and transposes whose result goes to the memory of an argument", "statement": "Tensor references are pointers; no operator checks that its output is separate from its inputs. With the built-in engine: matmul onto its left or right factor clears the factor first and gives nothing but zeros (if 0 + 0 b is 0 for the entries of the other factor). a b^T onto a, a^T b onto b (the gradients of matmul onto an argument of the gradient), and the products of matrix and vector onto the vector compute an entry from the results already written and the old entries that are left; a row of a b^T is then right exactly if for every entry j the sum over k < j of (right entry k - old entry k) b(j,k) is 0, which holds if b has zeros below the diagonal; the same for columns of a^T b. a b^T onto b and a^T b onto a likewise, entry by entry. A transpose between channels first and channels last onto its input takes a pixel from the results if its place was already written; it is right for all contents exactly if there is one channel or one pixel. With separate memory these products are those of the other claims.", "quantifier": "all sizes, entries, addresses and surrounding memory, in any arithmetic (the criterion: over rings)", "why_tests_cant": "what an aliased call computes depends on every entry and on the order of the loops; that no error is ever signalled is a statement about all of them", "anchors": ["include/ttl/nn/bits/engines/plain_impl.hpp: plain_impl", "include/ttl/nn/bits/ops/blas.hpp: matmul", "include/ttl/nn/bits/ops/gradients/matmul.hpp: matmul", "include/ttl/nn/bits/ops/transpose.hpp: transpose"]}
{"id": "C166", "title": "Gradients, convolution and pooling whose result goes to the memory of an argument", "statement": "Right in place: the gradients of mul onto either argument; the gradient of xentropy onto labels or predictions; the gradient of softmax onto the output of softmax; a bias on images onto its image, wherever the bias lies outside; a convolution in nhwc onto memory that overlaps its image in any way; its gradient by the image onto memory that overlaps the incoming gradient or the filter; a convolution in nchw onto its image if an example of the output is not larger than one of the input; pooling of an image, or of a batch in nchw, onto its input or memory that begins before it, if there is no padding in front and rows and images do not get larger; with channels last the same if the output begins a whole number of pixels before the input, or where it does. Undefined: the gradients of add, of a bias and of a reshape, and copy_flatten itself, onto memory that begins inside their argument (they are copies); before it or behind it they are right. Wrong, with no error: the gradient of softmax onto the incoming gradient, where an entry is computed from the results to its left; a convolution in nchw whose examples get larger; pooling with padding in front; pooling with channels last to memory that begins between two pixels.", "quantifier": "all shapes, contents, geometries, addresses and surrounding memory; convolution and pooling with windows that cover the padded axes; in any arithmetic, the values of convolutions over commutative semirings", "why_tests_cant": "whether an output may share memory with an input is a statement about all contents and overlaps", "anchors": ["include/ttl/nn/bits/ops/gradients/mul.hpp: mul", "include/ttl/nn/bits/ops/gradients/add.hpp: add", "include/ttl/nn/bits/ops/gradients/bias.hpp: add_bias", "include/ttl/nn/bits/ops/gradients/reshape.hpp: copy_flatten", "include/ttl/nn/bits/ops/reshape.hpp: copy_flatten", "include/ttl/nn/bits/ops/gradients/softmax.hpp: softmax", "include/ttl/nn/bits/ops/gradients/xentropy.hpp: xentropy", "include/ttl/nn/bits/kernels/cpu/conv2d.hpp: conv2d", "include/ttl/nn/bits/ops/gradients/conv2d.hpp: conv", "include/ttl/nn/bits/kernels/cpu/pool.hpp: pool", "include/ttl/nn/bits/ops/pool.hpp: pool"]}
{"id": "C167", "title": "Rounding error of the gradients of losses, biases and deep networks", "statement": "In arithmetic that rounds every operation with relative error at most u: the gradient of xentropy is exact up to 2 roundings, entry by entry; that of softmax, from the incoming gradient g and the outputs y, is within ((1+u)^(n+3) - 1) sum |g_l| |y_l (d_lj - y_j)| of the exact one; both together are within ((1+u)^(n+5) - 1) |c| sum |t_l| |d_lj - y_j| of c (y_j sum t - t_j), for any labels t; the bias gradient of images is within (1+u)^(number of pixels) - 1 of the sum, relative to the sum of absolute values. In a network of dense layers with relu of any depth, if the gradient by the output is known up to m roundings, the gradients by the inputs of layer t, by its weights and by its bias are known up to m + sum (width + 1) roundings, plus rows + 1 for the weights and rows for the bias, relative to the same backward pass over absolute values.", "quantifier": "all sizes, depths, widths and entries, every rounding function with relative error u", "why_tests_cant": "an error bound over all inputs and depths cannot be sampled", "anchors": ["include/ttl/nn/bits/ops/gradients/xentropy.hpp: xentropy", "include/ttl/nn/bits/ops/gradients/softmax.hpp: softmax", "include/ttl/nn/bits/ops/gradients/bias.hpp: add_bias", "include/ttl/nn/bits/ops/gradients/matmul.hpp: matmul", "include/ttl/nn/bits/ops/gradients/activation.hpp: relu"]}
{"id": "C168", "title": "Operators called by several threads", "statement": "Threads that call elementwise operators, biases in any layout, copies (flattening, the gradients of addition), softmax and its gradient, the gradients of xentropy and of biases, matrix products, nhwc convolution, transposes and pooling on tensors in one memory, such that no output of one thread overlaps an input or output of another (inputs may be shared): there is no data race; whatever turns they take after every element, no call ends but by returning, and every thread ends with the outputs it would have got alone; all interleavings leave the same memory, which is that of making the calls in one thread in any order of the threads; the rest of the memory is unchanged. So a matrix product may be split by rows among threads. If outputs overlap, the result may be one that no order of the calls gives.", "quantifier": "any threads, any lists of calls of any sizes, any contents in any arithmetic, all interleavings of single element accesses", "why_tests_cant": "races depend on the schedule; a test sees a few of the exponentially many interleavings", "anchors": ["include/ttl/nn/bits/kernels/cpu/elementary.hpp: binary_pointwise", "include/ttl/nn/bits/kernels/cpu/bias.hpp: apply_bias", "include/ttl/nn/bits/kernels/cpu/activation.hpp: softmax", "include/ttl/nn/bits/engines/plain_impl.hpp: plain_impl", "include/ttl/nn/bits/kernels/cpu/conv2d.hpp: conv2d", "include/ttl/nn/bits/ops/transpose.hpp: transpose", "include/ttl/nn/bits/kernels/cpu/pool.hpp: pool", "include/ttl/nn/bits/ops/pool.hpp: pool", "include/ttl/nn/bits/kernels/cpu/reduce.hpp: outter_contraction", "include/ttl/nn/bits/ops/gradients/bias.hpp: add_bias", "include/ttl/nn/bits/ops/gradients/softmax.hpp: softmax", "include/ttl/nn/bits/ops/gradients/xentropy.hpp: xentropy", "include/ttl/nn/bits/ops/reshape.hpp: copy_flatten"]}
{"id": "C169", "title": "Which elements operators access, and when", "statement": "Elementwise operators, biases in any layout, copies, softmax and its gradient, the gradients of xentropy and of biases, matrix and matrix-vector products (built-in engine), nhwc convolution, transposes between nhwc and nchw and pooling (with an accumulator defined on all values) access elements in an order that the shapes alone determine: for given shapes the list of elements read and written is the same whatever values the tensors hold, and its length is a formula (3 per element of a binary operator; n + 2 per element of a softmax over n; m n + m l + 3 m l n for a product of m x l and l x n; (2 l + 1) per element of a product with a transposed matrix; ...). The output is written in order, each element once, except in channels-last pooling (once, out of order), the plain product (cleared, then updated l times), the gradient of a bias (cleared, then updated once per row) and convolution (cleared, then updated once per weight of an output channel). Also when threads race for the same tensors, in every interleaving, no call leaves its tensors, fails or runs longer than alone: after k turns a thread has made the first k accesses of its list.", "quantifier": "all shapes, all contents in any arithmetic, any threads even with overlapping outputs, all interleavings", "why_tests_cant": "an access that depends on a value, or a race that makes a call run out of bounds, needs the right values and the right interleaving; tests see few of either", "anchors": ["include/ttl/nn/bits/kernels/cpu/elementary.hpp: binary_pointwise", "include/ttl/nn/bits/kernels/cpu/bias.hpp: apply_bias", "include/ttl/nn/bits/kernels/cpu/activation.hpp: softmax", "include/ttl/nn/bits/engines/plain_impl.hpp: plain_impl", "include/ttl/nn/bits/kernels/cpu/conv2d.hpp: conv2d", "include/ttl/nn/bits/kernels/cpu/im2col.hpp: im2col_2d", "include/ttl/nn/bits/ops/transpose.hpp: transpose", "include/ttl/nn/bits/kernels/cpu/pool.hpp: pool", "include/ttl/nn/bits/ops/pool.hpp: pool", "include/ttl/nn/bits/kernels/cpu/reduce.hpp: outter_contraction", "include/ttl/nn/bits/ops/gradients/bias.hpp: add_bias", "include/ttl/nn/bits/ops/gradients/softmax.hpp: softmax", "include/ttl/nn/bits/ops/gradients/xentropy.hpp: xentropy", "include/ttl/nn/bits/ops/reshape.hpp: copy_flatten"]}
{"id": "C170", "title": "Training runs in rounded arithmetic", "statement": "N steps of the training example on one batch, every operation rounded with relative error at most u, the exponential with relative error e; the rate at most 1/(n(r+1)), r bounding the squared length of the inputs; while the parameters are at most M in absolute value and no prediction is clipped. No step fails. Each step lowers the exact loss by at least (squared length of the exact step from there - E) / (2 c n), where E is a number given by u, e, the sizes, the rate, M and the largest input, and is 0 for u = e = 0. So the squared lengths of the exact steps add up to at most 2 c n times the fall of the loss plus N E: the loss falls until the exact steps are as short as the rounding errors. One of the N steps starts from parameters whose exact step has squared length at most a = 2 c n (first loss)/N + E, and whose loss is at most that of any other parameters at distance d plus d sqrt(a)/(c n).", "quantifier": "all batch sizes, numbers of inputs, classes and steps, inputs, labels, first parameters, rates, rounding functions", "why_tests_cant": "a statement about all data sets, numbers of steps and ways of rounding", "anchors": ["examples/example_train_mnist_slp.cpp: train_slp_model", "include/ttl/nn/bits/ops/gradients/softmax.hpp", "include/ttl/nn/bits/ops/gradients/xentropy.hpp", "include/ttl/nn/bits/ops/gradients/matmul.hpp", "include/ttl/nn/bits/ops/gradients/bias.hpp", "include/ttl/nn/bits/kernels/cpu/activation.hpp: softmax", "include/ttl/nn/bits/kernels/cpu/loss.hpp: xentropy"]}
{"id": "C171", "title": "A batch may be divided among threads", "statement": "A network of dense layers with elementwise activations and softmax layers, in any order, its weights, its inputs and its results in one memory where no result overlaps another result, the inputs or the parameters. Threads share the parameters and divide the examples among them in blocks, of any sizes, in any order; each calls the operators of all layers for its own examples. However they take turns after every element, there is no data race and no call fails; when all have ended, the memory is bit for bit that of one thread that evaluates all examples at once, in any arithmetic, and the result of every example is the value of the network at that example. A thread makes the same number of accesses per example whatever its share, given by the widths, and has ended just when it has had that many turns for each of its examples.", "quantifier": "all numbers of layers, widths, activations, batch sizes, divisions among any threads, contents in any arithmetic, all interleavings of single element accesses", "why_tests_cant": "races depend on the schedule, and equality bit for bit on the order of operations in every division of the batch", "anchors": ["include/ttl/nn/bits/layers/dense.hpp: dense", "include/ttl/nn/bits/kernels/cpu/bias.hpp: apply_bias", "include/ttl/nn/bits/engines/plain_impl.hpp: plain_impl", "include/ttl/nn/bits/kernels/cpu/activation.hpp: softmax", "include/ttl/nn/bits/kernels/cpu/activation.hpp: relu"]}
{"id": "C172", "title": "A training step may be divided among threads", "statement": "Softmax regression as in the training example, in one memory: threads divide the examples of a batch among them in blocks of any sizes; each computes the scores, the predictions, the gradients of xentropy and softmax and, to buffers of its own, the gradients by weights and bias of its share. If no result overlaps another one, an input or a parameter, then however they take turns there is no data race and no call fails; when a thread has ended, its predictions are those of the network and its buffers hold the gradients of its share, summed in order, in any arithmetic. It ends exactly after a number of accesses given by the sizes. In exact arithmetic, for targets that sum to 1, the buffers added up over the threads are the gradients of the whole batch, and with 1/N for every example and no prediction clipped they are the derivative of the mean loss, whatever the division.", "quantifier": "all batch sizes, widths, numbers of classes, divisions among any threads, contents, all interleavings of single element accesses", "why_tests_cant": "races depend on the schedule; that the gradients of the shares add up to that of the batch is a statement about all divisions", "anchors": ["examples/example_train_mnist_slp.cpp: train_slp_model", "include/ttl/nn/bits/ops/gradients/xentropy.hpp: xentropy", "include/ttl/nn/bits/ops/gradients/softmax.hpp: softmax", "include/ttl/nn/bits/ops/gradients/bias.hpp: add_bias", "include/ttl/nn/bits/ops/gradients/matmul.hpp: matmul", "include/ttl/nn/bits/kernels/cpu/reduce.hpp: outter_contraction", "include/ttl/nn/bits/engines/plain_impl.hpp: plain_impl"]}
{"id": "C173", "title": "Parameters grow at most linearly along training runs in rounded arithmetic", "statement": "Training as in the example, every operation rounded with relative error at most u, the exponential with relative error e. Whatever the parameters are, a computed prediction is positive and at most the larger of eps and (1+u)/((1-e)(1-u)^k), k the number of classes; so one step on a batch of n moves a weight by at most S = (1+u)^(n+k+6) |c| n x P, c the rate, x the largest input, P that bound (a bias: with 1 for x). The program run on any data set of any size returns, and after T batches a weight that was at most M is at most (1+u)^T (M + T S). Without rounding S is |c| n x. So the bounds on the loss along a run of N steps (C170) hold without an assumption on the parameters after the first.", "quantifier": "all data sets, batch sizes, numbers of inputs, classes and steps, first parameters, rates of either sign, rounding functions; also where predictions are clipped", "why_tests_cant": "a bound for all data sets, numbers of steps and ways of rounding", "anchors": ["examples/example_train_mnist_slp.cpp: train_slp_model", "include/ttl/nn/bits/ops/gradients/softmax.hpp", "include/ttl/nn/bits/ops/gradients/xentropy.hpp", "include/ttl/nn/bits/ops/gradients/matmul.hpp", "include/ttl/nn/bits/ops/gradients/bias.hpp", "include/ttl/nn/bits/kernels/cpu/activation.hpp: softmax"]}
{"id": "C174", "title": "Gradients from threads, added up in floating point, stay close to the whole batch's", "statement": "Threads compute the gradients of a training step, each for its share of the batch, and the caller then adds their buffers with add, one after the other, to a buffer of zeros. Whatever the interleaving and whatever the order of adding, every element of the sum differs from the exact sum over the whole batch by at most ((1+u)^(K+T+1)-1) times the sum of the absolute products (for the bias (1+u)^(K+T)-1 and the sum of absolute values), where u is the unit roundoff, K the size of the largest share and T the number of threads. Two ways of dividing the same batch, for example threads and no threads, differ by at most the sum of their two bounds. Adding the buffers changes nothing but the buffer of the sum, and is the sum from left to right in any arithmetic.", "quantifier": "for all batches, numbers of inputs and classes, divisions of the batch among any number of threads, interleavings, orders of adding, and roundings with relative error at most u", "why_tests_cant": "floating point sums depend on how they are grouped, so a test can only compare a few groupings with a tolerance that it has to guess", "anchors": ["examples/example_train_mnist_slp.cpp: train_slp_model", "include/ttl/nn/bits/ops/gradients/matmul.hpp", "include/ttl/nn/bits/ops/gradients/bias.hpp", "include/ttl/nn/bits/ops/elementary.hpp: add", "include/ttl/nn/bits/kernels/cpu/elementary.hpp"]}
{"id": "C175", "title": "Training with threads gives the weights of sequential training", "statement": "A training step of the softmax regression example with the batch divided among threads, after which the caller subtracts every thread's gradients from weights and bias with sub: in exact arithmetic, for targets that sum to 1, weights and bias have the gradients of the whole batch subtracted, no call fails, and the batch keeps its values. A training run of any number of such steps, each on a batch of its own with its own division, interleaving and order of subtracting, ends with the weights and the bias of the example's sequential steps on the same batches. In particular the example's whole training program, for every data set whose labels are classes, leaves the same weights and bias when its batches are divided among threads. In rounded arithmetic, weights and bias after a step differ from the old ones minus the exact sums of the same products by a relative error that counts only the largest share and the number of threads. In any arithmetic, a run is deterministic: for given divisions and orders of subtracting the whole memory after it is the same, bit for bit, for all interleavings; subtracting buffers subtracts them one by one and changes nothing else.", "quantifier": "for all batches, sizes, divisions among any number of threads in every step, interleavings, orders of subtracting and numbers of steps", "why_tests_cant": "a test sees a few schedules of a few steps; that no schedule in any step changes the result needs an argument over all of them", "anchors": ["examples/example_train_mnist_slp.cpp: train_slp_model", "include/ttl/nn/bits/ops/gradients/matmul.hpp", "include/ttl/nn/bits/ops/gradients/softmax.hpp", "include/ttl/nn/bits/ops/gradients/xentropy.hpp", "include/ttl/nn/bits/ops/elementary.hpp: sub"]}
{"id": "C176", "title": "Which concurrent calls race, exactly, and that race-free calls are deterministic", "statement": "For threads that call operators on views of one memory, on arguments that fit: the threads can come to a point where two of them are about to access the same element and one of them is about to write it exactly if some thread, in any of its calls, writes an element that another thread reads or writes in any of its calls. No order of the calls within the threads and no values protect from a race, and whether there is one does not depend on the contents of the memory. A call writes exactly the elements of its output, so threads whose outputs are apart from the inputs and outputs of the others do not race, and two threads with overlapping outputs do. In particular a training step divided among threads has no race if the shares of the batch are apart and every thread has gradient buffers of its own, and has one if two threads share these buffers or an example. If there is no race, then in any arithmetic every thread is at any time where it would be alone and sees what it would see alone; elements that no thread writes keep their values; all interleavings in which all threads end leave the same memory bit for bit; and that memory is what the threads leave when they run one after the other, in any order.", "quantifier": "for all numbers of threads, sequences of the modelled operators' calls, shapes, overlaps of their views, interleavings, contents and arithmetics", "why_tests_cant": "a race shows only in some schedules, and a test that passes says nothing about the schedules it has not seen", "anchors": ["include/ttl/nn/bits/kernels/cpu/bias.hpp", "include/ttl/nn/bits/kernels/cpu/elementary.hpp", "include/ttl/nn/bits/kernels/cpu/pool.hpp", "include/ttl/nn/bits/kernels/cpu/activation.hpp", "include/ttl/nn/bits/ops/conv2d.hpp", "include/ttl/nn/bits/ops/gradients/softmax.hpp", "include/ttl/nn/bits/ops/gradients/bias.hpp"]}
