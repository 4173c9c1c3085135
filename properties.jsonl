{"id": "C01", "title": "Padded output has exactly the requested shape", "statement": "Padder.forward(x, axes) returns, without raising, a tensor whose size on every processed axis is before + n + after (plus one for mode 'periodize' when n is odd and the width is non-zero) and whose size on every other axis is unchanged.", "quantifier": "every tensor rank >= 1 and every positive shape, every list of distinct valid axes, every non-negative pad width (also wider than the tensor), every built-in value mode, possibly different per axis", "why_tests_cant": "ranks, shapes and widths are unbounded; multi-wrap widths are exactly what the existing tests avoid", "anchors": ["torchimage/padding/generic_pad.py:Padder.forward", "torchimage/padding/generic_pad.py:Padder._fill_value_1d", "torchimage/padding/pad_1d.py"]}
{"id": "C02", "title": "Padding never alters the original samples", "statement": "Cropping the region [before, before+n) on every padded axis out of Padder.forward(x, axes) gives back x element for element.", "quantifier": "every tensor, axes list, pad width and built-in value mode, mixed modes included", "why_tests_cant": "in-place fills write into the same buffer the original data lives in; only a proof excludes overlap for all widths", "anchors": ["torchimage/padding/generic_pad.py:Padder.forward", "torchimage/padding/pad_1d.py"]}
{"id": "C03", "title": "No uninitialised memory reaches the caller", "statement": "The tensor returned by Padder.forward does not depend on the contents of the freshly allocated buffer, for every built-in value mode.", "quantifier": "every possible content of the torch.empty buffer, every tensor, axes list, widths and mode", "why_tests_cant": "a test sees one allocator state; the claim is about all of them", "anchors": ["torchimage/padding/generic_pad.py:Padder.forward", "torchimage/padding/pad_1d.py"]}
{"id": "C04", "title": "'replicate' clamps coordinates", "statement": "With mode 'replicate', y[i] = x[clamp(i - before, 0, n-1)] on every padded axis simultaneously.", "quantifier": "all ranks, shapes, axes, widths, element positions", "why_tests_cant": "unbounded shapes and widths", "anchors": ["torchimage/padding/pad_1d.py:replicate_1d", "torchimage/padding/generic_pad.py"]}
{"id": "C05", "title": "'circular' is periodic extension at any width", "statement": "With mode 'circular', y[i] = x[(i - before) mod n] on every padded axis, including widths many times larger than the tensor.", "quantifier": "all ranks, shapes, axes, widths (multi-wrap), positions", "why_tests_cant": "the chunked copy loop runs an unbounded number of times; tests stop at width n", "anchors": ["torchimage/padding/pad_1d.py:circular_1d", "torchimage/padding/generic_pad.py"]}
{"id": "C06", "title": "'symmetric' is half-sample mirror extension at any width", "statement": "With mode 'symmetric', y[i] is x at the coordinate obtained by folding (i - before) with period 2n about the half-sample edges (d c b a | a b c d | d c b a), for every width, whichever of the cached / uncached code paths runs.", "quantifier": "all ranks, shapes, axes, widths, positions", "why_tests_cant": "two code paths (cache) and alternating chunks, unbounded iterations", "anchors": ["torchimage/padding/pad_1d.py:symmetric_1d", "torchimage/padding/generic_pad.py"]}
{"id": "C07", "title": "'reflect' is whole-sample mirror extension at any width", "statement": "With mode 'reflect', y[i] is x at the coordinate obtained by folding (i - before) with period 2(n-1) about the edge samples (d c b | a b c d | c b a); for n = 1 it replicates.", "quantifier": "all ranks, shapes, axes, widths, positions", "why_tests_cant": "alternating chunk lengths n-2 / n and special cases n=1, n=2", "anchors": ["torchimage/padding/pad_1d.py:reflect_1d", "torchimage/padding/generic_pad.py"]}
{"id": "C08", "title": "'antisymmetric' is the negated mirror extension", "statement": "With mode 'antisymmetric', y[i] is the mirrored sample with a sign that flips at every half-sample edge crossed, also for n = 1.", "quantifier": "all ranks, shapes, axes, widths, positions", "why_tests_cant": "sign bookkeeping over unbounded chunk alternation", "anchors": ["torchimage/padding/pad_1d.py:symmetric_1d", "torchimage/padding/generic_pad.py"]}
{"id": "C09", "title": "'odd_reflect' is point reflection about the edge sample", "statement": "With mode 'odd_reflect' the extension satisfies e(-k) = 2 e(0) - e(k) about every edge it crosses; equivalently it is x(fold) with drift 2(x[n-1]-x[0]) per period 2(n-1); for n = 1 it replicates.", "quantifier": "all ranks, shapes, axes, widths, positions", "why_tests_cant": "each chunk is computed from the previously written chunk, so errors would compound with width", "anchors": ["torchimage/padding/pad_1d.py:odd_reflect_1d", "torchimage/padding/generic_pad.py"]}
{"id": "C10", "title": "'odd_symmetric' is point reflection about the half-sample edge", "statement": "With mode 'odd_symmetric' the extension is x(fold) with drift 2(x[n-1]-x[0]) per period 2n and values 2*edge - mirrored in odd blocks.", "quantifier": "all ranks, shapes, axes, widths, positions", "why_tests_cant": "numpy (the test oracle) is itself wrong beyond width n", "anchors": ["torchimage/padding/pad_1d.py:odd_symmetric_1d", "torchimage/padding/generic_pad.py"]}
{"id": "C11", "title": "'smooth' is straight-line extrapolation", "statement": "With mode 'smooth', samples before the signal are x[0] - k (x[1]-x[0]) at distance k and samples after it are x[n-1] + k (x[n-1]-x[n-2]); for n = 1 it replicates.", "quantifier": "all ranks, shapes, axes, widths, positions", "why_tests_cant": "broadcast view shapes depend on the axis and the rank", "anchors": ["torchimage/padding/pad_1d.py:smooth_1d", "torchimage/padding/generic_pad.py"]}
{"id": "C12", "title": "'linear_ramp' runs linearly from the border to the end value", "statement": "With mode 'linear_ramp' the outermost samples equal the end values and the padded samples interpolate linearly between the end value and the border sample.", "quantifier": "all ranks, shapes, axes, widths, end values, positions", "why_tests_cant": "linspace slices and broadcast views for every axis/rank", "anchors": ["torchimage/padding/pad_1d.py:linear_ramp_1d", "torchimage/padding/generic_pad.py"]}
{"id": "C13", "title": "'constant' writes the before/after constants", "statement": "With mode 'constant' the padded samples before/after axis a equal that axis' constants; when several axes are padded, the corner takes the value of the last axis processed.", "quantifier": "all ranks, shapes, axes, widths, constants, positions", "why_tests_cant": "corner ownership depends on processing order", "anchors": ["torchimage/padding/pad_1d.py:constant_1d", "torchimage/padding/generic_pad.py"]}
{"id": "C14", "title": "Statistic modes pad with the statistic of the border window", "statement": "With modes maximum/minimum/mean/median, the padded samples equal the statistic of the first/last stat_length samples of that fibre (None: the whole fibre; stat_length clipped to [1, n]); for maximum/minimum/median the value occurs in the window and bounds it as the name says.", "quantifier": "all ranks, shapes, axes, widths, stat lengths", "why_tests_cant": "window clipping and in-place order matter for every shape", "anchors": ["torchimage/padding/pad_1d.py:stat_1d", "torchimage/padding/generic_pad.py"]}
{"id": "C15", "title": "'periodize' extends odd signals by one then repeats", "statement": "With mode 'periodize', y equals the circular extension of the signal extended to even length by repeating its last sample.", "quantifier": "all ranks, shapes, axes, non-zero widths, positions", "why_tests_cant": "reserving the extra slot is split between forward and the 1d function", "anchors": ["torchimage/padding/pad_1d.py:periodize_1d", "torchimage/padding/generic_pad.py"]}
{"id": "C16", "title": "N-d padding is sequential 1-d padding in axes order", "statement": "Padder.forward(x, axes) equals padding one axis at a time in the order given, each step applied to the full result of the previous step (corner regions included).", "quantifier": "all ranks, axes lists, per-axis widths/modes", "why_tests_cant": "in-place fills use a moving ground-truth window; any window mistake shows up only in corners of high-rank inputs", "anchors": ["torchimage/padding/generic_pad.py:Padder.forward", "torchimage/padding/generic_pad.py:Padder._fill_value_1d"]}
{"id": "C17", "title": "Axis order is irrelevant for the extension modes", "statement": "For the coordinate modes (replicate, circular, periodize, symmetric, reflect) and for antisymmetric, the result does not depend on the order in which the axes are listed.", "quantifier": "all tensors, permutations of axes, widths", "why_tests_cant": "permutations and ranks are unbounded", "anchors": ["torchimage/padding/generic_pad.py:Padder.forward"]}
{"id": "C18", "title": "Nothing to pad returns the input", "statement": "When axes is empty or every selected width is (0, 0), Padder.forward returns x itself, for any mode specification, valid or not.", "quantifier": "all tensors, axes, modes", "why_tests_cant": "mode branches are only reached for non-zero widths", "anchors": ["torchimage/padding/generic_pad.py:Padder.forward"]}
{"id": "C19", "title": "Padding loops terminate for every width on non-empty axes", "statement": "For every built-in mode, a non-empty axis and any pad width, the chunk loops finish within (width) iterations and never raise; on an empty axis that is to be padded before, none of the looping modes terminates in forward, while pad_axis raises ZeroDivisionError for the mirroring modes.", "quantifier": "all sizes >= 1, all widths; all step counts for the divergence claim", "why_tests_cant": "termination for all widths and non-termination cannot be observed by running", "anchors": ["torchimage/padding/pad_1d.py"]}
{"id": "C20", "title": "'zeros' pads with zeros", "statement": "With mode 'zeros' the padded samples are 0 (same result as constant padding with 0).", "quantifier": "all tensors, axes, widths", "why_tests_cant": "not covered by the test-suite; the output is whatever memory held", "anchors": ["torchimage/padding/generic_pad.py:Padder._fill_value_1d", "torchimage/padding/pad_1d.py:zeros_1d"]}
{"id": "C21", "title": "Specifications are right-justified", "statement": "If the padder specification has m entries and k axes are given, the last min(m,k) entries apply to the last min(m,k) axes in order; a single item applies to every axis; other axes are untouched.", "quantifier": "all m, k, tensors", "why_tests_cant": "all combinations of lengths", "anchors": ["torchimage/padding/generic_pad.py:Padder.forward", "torchimage/utils/ndspec.py:NdSpec.__getitem__"]}
{"id": "C22", "title": "pad_axis agrees with forward on one axis", "statement": "Padder.pad_axis(x, i, axis) returns the same tensor as forward on that single axis.", "quantifier": "all tensors, modes, widths", "why_tests_cant": "mode/width combinations are unbounded", "anchors": ["torchimage/padding/generic_pad.py:Padder.pad_axis"]}
{"id": "C23", "title": "Pad-width validation and broadcasting", "statement": "Padder accepts pad_width as an int c (meaning (c,c) everywhere), a pair, or a list of pairs, and raises ValueError for any negative width anywhere in the specification.", "quantifier": "all integer specifications of those forms", "why_tests_cant": "unbounded list lengths", "anchors": ["torchimage/padding/generic_pad.py:Padder.__init__", "torchimage/utils/validation.py:check_pad_width"]}
{"id": "C24", "title": "Same padding keeps the output size at ceil(n/stride)", "statement": "With (before, after) = same_padding_width(k, s, n): before - after is 0 or 1, both are non-negative, and a valid convolution of size k and stride s over n + before + after samples has exactly ceil(n/s) outputs; for s = 1, before + after = k - 1.", "quantifier": "all k >= 1, s >= 1, n >= 1", "why_tests_cant": "integer rounding for all triples", "anchors": ["torchimage/padding/utils.py:same_padding_width", "torchimage/shapes/conv_like.py:conv_1d"]}
{"id": "C25", "title": "Same padding covers every input element and is minimal", "statement": "When k >= s, every original element lies in some window of the same-padded convolution, and no smaller total padding gives ceil(n/s) outputs (unless it is already 0).", "quantifier": "all k, s, n >= 1", "why_tests_cant": "integer rounding for all triples", "anchors": ["torchimage/padding/utils.py:same_padding_width"]}
{"id": "C26", "title": "conv_1d counts the valid windows", "statement": "conv_1d(n,k,s,d) equals the number of window positions t >= 0 with t*s + d*(k-1) < n, whenever the dilated kernel fits.", "quantifier": "all n, k, s, d >= 1", "why_tests_cant": "floor division for all inputs", "anchors": ["torchimage/shapes/conv_like.py:conv_1d"]}
{"id": "C27", "title": "Pad-width format conversion round-trips", "statement": "Converting a pad-width specification numpy -> torch -> numpy is the identity, torch -> numpy -> torch is the identity up to explicit leading zero pairs, and the axis order is reversed pairwise.", "quantifier": "all specification lengths and ndim", "why_tests_cant": "unbounded lengths", "anchors": ["torchimage/padding/utils.py:pad_width_format"]}
{"id": "C28", "title": "n_original_elements counts original samples per window", "statement": "n_original_elements_1d(n, (pb, pa), k, s) returns, for every window position t, the number of original (non padded) samples in [t*s, t*s+k), and has the length of the convolution output; the empty list if the kernel does not fit.", "quantifier": "all n >= 0, pb, pa >= 0, k, s >= 1", "why_tests_cant": "piecewise closed form over five unbounded integers", "anchors": ["torchimage/shapes/conv_like.py:n_original_elements_1d"]}
{"id": "C29", "title": "n_original_elements_nd is the product of per-axis counts", "statement": "n_original_elements_nd at multi-index (t1..tm) is the product of the per-axis counts, i.e. the number of original elements in the n-d window.", "quantifier": "all ranks and per-axis parameters", "why_tests_cant": "unbounded rank", "anchors": ["torchimage/shapes/conv_like.py:n_original_elements_nd", "torchimage/misc/outer.py:outer"]}
{"id": "C30", "title": "Separable pooling is full correlation with the outer-product kernel", "statement": "SeparablePoolNd.forward over distinct axes (no padder) equals the n-d correlation with kernel w[j1..jm] = k1[j1]*...*km[jm] and the given strides.", "quantifier": "all ranks, kernels, strides, axes, tensors", "why_tests_cant": "separability must hold for every kernel and rank", "anchors": ["torchimage/pooling/base.py:SeparablePoolNd.forward"]}
{"id": "C31", "title": "Pooling output shape", "statement": "The pooled size on axis i is floor((n-k)/s)+1 (padded n if a same padder is attached), other axes unchanged; a same-padded filter (stride 1) preserves the shape exactly; with stride s it gives ceil(n/s).", "quantifier": "all shapes, kernel sizes, strides, modes", "why_tests_cant": "integer rounding for all shapes", "anchors": ["torchimage/pooling/base.py:SeparablePoolNd.forward", "torchimage/pooling/base.py:BasePoolNd.pad"]}
{"id": "C32", "title": "Pooling result does not depend on axis order", "statement": "Permuting axes together with the per-axis kernels/strides leaves the output unchanged.", "quantifier": "all permutations, kernels, tensors", "why_tests_cant": "unbounded permutations", "anchors": ["torchimage/pooling/base.py:SeparablePoolNd.forward"]}
{"id": "C33", "title": "Pooling is linear", "statement": "Pooling a*x + b*y gives a*pool(x) + b*pool(y).", "quantifier": "all tensors, scalars, kernels, strides, axes", "why_tests_cant": "all reals", "anchors": ["torchimage/pooling/base.py:SeparablePoolNd.forward"]}
{"id": "C34", "title": "Normalised pooling preserves constants and the value range", "statement": "AvgPoolNd and GaussianPoolNd (order 0), with or without a same padder whose mode reuses samples, map a constant image to the same constant and keep outputs within [min, max] of the input.", "quantifier": "all shapes, kernel sizes, sigma, coordinate padding modes", "why_tests_cant": "all tensors", "anchors": ["torchimage/pooling/uniform.py", "torchimage/pooling/gaussian.py", "torchimage/pooling/base.py"]}
{"id": "C35", "title": "Call history does not influence pooling results", "statement": "Although a same padder is mutated in place by every call and may be shared by several modules, the result of forward depends only on the module, the padder's construction parameters and the arguments, not on earlier calls (successful or failed).", "quantifier": "every finite history of forward / to_same calls on a shared padder", "why_tests_cant": "histories are unbounded", "anchors": ["torchimage/pooling/base.py:BasePoolNd.pad", "torchimage/padding/generic_pad.py:Padder.to_same"]}
{"id": "C36", "title": "count_include_pad=False averages only original samples", "statement": "With zero-constant same padding, AvgPoolNd(count_include_pad=False) returns at each position the arithmetic mean of the original samples inside the window, for any order of the axes argument.", "quantifier": "all shapes, kernels, strides, axes orders", "why_tests_cant": "axes orders and non-square shapes", "anchors": ["torchimage/pooling/uniform.py:AvgPoolNd.forward"]}
{"id": "C37", "title": "Gaussian kernel is a symmetric probability vector", "statement": "gaussian_kernel_1d(k, sigma, 0) has length k, positive entries summing to 1, and is symmetric when k is odd.", "quantifier": "all k >= 1, sigma != 0", "why_tests_cant": "real parameters", "anchors": ["torchimage/pooling/gaussian.py:gaussian_kernel_1d", "torchimage/pooling/gaussian.py:_gaussian_kernel1d"]}
{"id": "C38", "title": "Higher-order Gaussian kernels are the derivative samples", "statement": "For order m, the kernel entries are the m-th derivative of the Gaussian density shape at the sample points (reversed for correlation), with parity (-1)^m.", "quantifier": "all odd kernel sizes, sigma != 0, all orders m", "why_tests_cant": "all orders and real sigma", "anchors": ["torchimage/pooling/gaussian.py:_gaussian_kernel1d"]}
{"id": "C39", "title": "any_conv_1d equals sliding-window product on any axis", "statement": "any_conv_1d(x, w, dim, stride, dilation=1) equals unfolding x along dim and multiplying with w, for every dim including negative ones.", "quantifier": "all ranks, shapes, dims, strides, kernels", "why_tests_cant": "reshape arithmetic for all ranks", "anchors": ["torchimage/pooling/operator.py:any_conv_1d"]}
{"id": "C40", "title": "Edge-filter fast paths equal the generic convolution", "statement": "For edge kernels (-1,0,1) and (1,-2,1) the slice-based fast paths return exactly what the generic same-padded convolution returns.", "quantifier": "all tensors, axes, padders", "why_tests_cant": "all shapes and padder modes", "anchors": ["torchimage/filtering/edges.py:EdgeFilter._conv_edge"]}
{"id": "C41", "title": "EdgeFilter convolves with the kernel it was given", "statement": "EdgeFilter applies the supplied edge kernel, whatever its coefficients.", "quantifier": "all real 3-tap kernels", "why_tests_cant": "coefficients are real numbers; a truncation bug hides in an open set", "anchors": ["torchimage/filtering/edges.py:EdgeFilter._conv_edge"]}
{"id": "C42", "title": "Edge responses vanish on constant images", "statement": "For Sobel, Prewitt, Scharr, Farid and the odd-order Gaussian gradient with a sample-reusing padder, every component and magnitude of a constant image is 0.", "quantifier": "all shapes, axes, constants, coordinate padding modes", "why_tests_cant": "all shapes", "anchors": ["torchimage/filtering/edges.py"]}
{"id": "C43", "title": "Laplace is the sum of per-axis second differences", "statement": "Laplace.forward(x, axes) equals the sum over axes of x[+1] + x[-1] - 2x in the padded image.", "quantifier": "all ranks, axes (>= 2), tensors", "why_tests_cant": "unbounded rank", "anchors": ["torchimage/filtering/edges.py:Laplace", "torchimage/filtering/edges.py:EdgeFilter.magnitude"]}
{"id": "C44", "title": "Normalised smoothing kernels have unit sum", "statement": "With normalize=True every smoothing kernel used has coefficients summing to 1 (if the given sum is non-zero) and the same direction.", "quantifier": "all kernels", "why_tests_cant": "real coefficients", "anchors": ["torchimage/filtering/edges.py:EdgeFilter.__init__"]}
{"id": "C45", "title": "Unsharp masking formula and identities", "statement": "UnsharpMask returns x + amount*(x - blur(x)) with differences below the threshold dropped; amount 0 or a flat image returns x; the output shape equals the input shape.", "quantifier": "all tensors, amounts, thresholds, blurs", "why_tests_cant": "real parameters", "anchors": ["torchimage/filtering/sharpen.py:UnsharpMask.forward"]}
{"id": "C46", "title": "1-channel / 4-channel Bayer conversion is a bijection", "statement": "bayer_4c_to_1c(bayer_1c_to_4c(x)) = x and bayer_1c_to_4c(bayer_4c_to_1c(z)) = z for all valid inputs, independent of uninitialised memory.", "quantifier": "all ranks, even heights/widths, contents", "why_tests_cant": "unbounded shapes", "anchors": ["torchimage/cfa/utils/bayer_1c_4c.py"]}
{"id": "C47", "title": "RGB to 4-channel equals RGB to 1-channel to 4-channel", "statement": "bayer_1c_to_4c(rgb_to_1c_bayer(x, sa)) = rgb_to_4c_bayer(x, sa).", "quantifier": "all RGB tensors with even sides, 4 alignments in any letter case", "why_tests_cant": "unbounded shapes", "anchors": ["torchimage/cfa/utils/rgb_to_bayer.py", "torchimage/cfa/utils/bayer_1c_4c.py"]}
{"id": "C48", "title": "Mosaicing keeps the right colour at each pixel", "statement": "rgb_to_1c_bayer(x, sa)[.., 0, i, j] is the channel of x named by the letter of sa at position 2*(i mod 2) + (j mod 2).", "quantifier": "all RGB tensors, alignments, positions", "why_tests_cant": "unbounded shapes", "anchors": ["torchimage/cfa/utils/rgb_to_bayer.py:rgb_to_1c_bayer"]}
{"id": "C49", "title": "Demosaic assembly keeps measured samples", "statement": "last_step_demosaic(x, y, sa) leaves the measured sample in its own channel and puts y's two planes in the other two channels in RGB order; re-mosaicing the result gives x back.", "quantifier": "all tensors, alignments", "why_tests_cant": "unbounded shapes", "anchors": ["torchimage/cfa/bayer_conv/bayer_conv_2d.py:last_step_demosaic"]}
{"id": "C50", "title": "Bayer downsampling", "statement": "downsample_1c/4c_bayer_to_rgb take R and B from the 2x2 block and the mean of its two G samples; both agree through the 1c/4c conversion; downsampling a mosaiced constant-colour image returns that colour.", "quantifier": "all tensors, alignments", "why_tests_cant": "unbounded shapes", "anchors": ["torchimage/cfa/utils/bayer_to_rgb.py"]}
{"id": "C51", "title": "Sensor alignment validation", "statement": "check_sensor_alignment accepts exactly the four Bayer patterns in any letter case, returns the upper-case form and is idempotent; the four pixel types R, B, GR, GB occupy four distinct cells of the 2x2 tile with GR in the R row and GB in the B row.", "quantifier": "all strings", "why_tests_cant": "strings are unbounded", "anchors": ["torchimage/cfa/utils/validation.py:check_sensor_alignment", "torchimage/cfa/bayer_conv/bayer_conv_2d.py:get_sensor_beg_index"]}
{"id": "C52", "title": "Bayer convolution is centred on its pixel", "statement": "BayerConv2d output at pixel (i,j) is the filter bank of that pixel's colour type applied to the reflect-padded neighbourhood centred at (i,j).", "quantifier": "all inputs, odd kernel sizes, alignments, weights, biases", "why_tests_cant": "unbounded shapes/weights", "anchors": ["torchimage/cfa/bayer_conv/bayer_conv_2d.py:BayerConv2d.forward", "torchimage/cfa/bayer_conv/bayer_conv_2d.py:get_padding_layer"]}
{"id": "C53", "title": "forward_unshuffle is pixel-unshuffled forward", "statement": "BayerConv2d.forward_unshuffle(x) equals pixel_unshuffle(forward(x), 2).", "quantifier": "all inputs, weights, alignments", "why_tests_cant": "the test samples one shape", "anchors": ["torchimage/cfa/bayer_conv/bayer_conv_2d.py:BayerConv2d.forward_unshuffle"]}
{"id": "C54", "title": "Gradient-corrected demosaicing: range, measured samples, flat fields", "statement": "demosaic output lies in [0, clamp]; measured samples already in range are kept; a constant Bayer image in range demosaics to the constant grey image.", "quantifier": "all Bayer images, alignments, clamps", "why_tests_cant": "unbounded shapes", "anchors": ["torchimage/cfa/bayer_conv/gradient_corrected.py", "torchimage/cfa/bayer_conv/bayer_conv_2d.py:PreTrainedBilinearInterpolator"]}
{"id": "C55", "title": "MSE is a squared distance", "statement": "MSE with mean/sum reduction over all axes is non-negative, symmetric, and zero exactly when the images are equal; sum = mean * count; 'none' is the per-element square; mismatching shapes or unknown reductions raise.", "quantifier": "all tensor pairs", "why_tests_cant": "all reals", "anchors": ["torchimage/metrics/mse.py", "torchimage/metrics/base.py"]}
{"id": "C56", "title": "PSNR is the decibel form of MSE", "statement": "PSNR = 10*log10(max^2 / MSE) when MSE > 0; it is symmetric, strictly decreasing in MSE, and invariant when images and max_value are scaled together.", "quantifier": "all tensor pairs with different images, max_value > 0", "why_tests_cant": "all reals", "anchors": ["torchimage/metrics/psnr.py"]}
{"id": "C57", "title": "SSIM is symmetric", "statement": "SSIM(x, y) = SSIM(y, x), both the score and the full map.", "quantifier": "all tensor pairs, blurs, padders, axes", "why_tests_cant": "all reals", "anchors": ["torchimage/metrics/ssim.py:SSIM.forward"]}
{"id": "C58", "title": "SSIM of an image with itself is 1", "statement": "The full SSIM map of (x, x) is 1 everywhere and the score is 1.", "quantifier": "all tensors, blurs with a non-negative unit-sum kernel, K1, K2 != 0", "why_tests_cant": "all reals", "anchors": ["torchimage/metrics/ssim.py"]}
{"id": "C59", "title": "SSIM is bounded by 1", "statement": "Every entry of the SSIM map and the score lie in [-1, 1] for non-negative unit-sum blurs.", "quantifier": "all tensor pairs, kernels", "why_tests_cant": "Cauchy-Schwarz over all reals", "anchors": ["torchimage/metrics/ssim.py"]}
{"id": "C60", "title": "Border cropping makes the SSIM score independent of padding", "statement": "With crop_border=True the SSIM score is the same for every padding mode and equals the score computed with no padding at all.", "quantifier": "all image pairs, padder modes, kernels, axes", "why_tests_cant": "pairs of modes x all images", "anchors": ["torchimage/metrics/ssim.py:SSIM._crop_border"]}
{"id": "C61", "title": "MS-SSIM symmetry, self-similarity and range", "statement": "MS_SSIM is symmetric; MS_SSIM(x, x) = 1 for the product form; the product form lies in (0, 1] for non-negative weights and eps <= 1.", "quantifier": "all image pairs, weights with at least two levels", "why_tests_cant": "all reals", "anchors": ["torchimage/metrics/ssim.py:MS_SSIM"]}
{"id": "C62", "title": "MS-SSIM accepts any non-empty weight tuple", "statement": "MS_SSIM works for every non-empty weights tuple, including a single level.", "quantifier": "all weight tuples", "why_tests_cant": "a crash path not covered by tests", "anchors": ["torchimage/metrics/ssim.py:MS_SSIM.forward"]}
{"id": "C63", "title": "poly1d evaluates the polynomial", "statement": "poly1d(x, [a_n..a_0]) returns sum a_i x^i elementwise for every coefficient list of length >= 2.", "quantifier": "all tensors, coefficient lists", "why_tests_cant": "all degrees", "anchors": ["torchimage/misc/polynomial.py:poly1d"]}
{"id": "C64", "title": "poly1d accepts constant polynomials", "statement": "poly1d(x, [a_0]) returns the constant a_0.", "quantifier": "all tensors and constants", "why_tests_cant": "edge case", "anchors": ["torchimage/misc/polynomial.py:poly1d"]}
{"id": "C65", "title": "safe_power is total and sign-preserving", "statement": "safe_power(x, e) equals x^e for positive x or integral e, equals -|x|^e for negative x with fractional e and epsilon^e at zero with fractional e, per element under broadcasting, and is unaffected by other elements' exponents.", "quantifier": "all real tensors, exponents, epsilon > 0", "why_tests_cant": "element interactions through any() shortcuts", "anchors": ["torchimage/misc/power.py:safe_power"]}
{"id": "C66", "title": "outer is the tensor product", "statement": "outer(u, v) has shape u.shape + v.shape and entries u[i]*v[j]; it is associative.", "quantifier": "all shapes", "why_tests_cant": "unbounded rank", "anchors": ["torchimage/misc/outer.py:outer"]}
{"id": "C67", "title": "random_crop returns a contiguous window of the requested size", "statement": "For every random draw, random_crop returns x[.., beg:beg+size, ..] with 0 <= beg and beg+size <= n on the selected axes and leaves axes with size None whole.", "quantifier": "all tensors, axes, sizes, all RNG outcomes", "why_tests_cant": "all random draws", "anchors": ["torchimage/random.py:random_crop"]}
{"id": "C68", "title": "random_crop reaches every window", "statement": "Every window position 0..n-size can be drawn, and size = n returns x itself.", "quantifier": "all sizes <= n", "why_tests_cant": "probability-zero events look like bad luck in a test", "anchors": ["torchimage/random.py:random_crop"]}
{"id": "C69", "title": "A single item broadcasts to every index", "statement": "NdSpec(item, item_shape)[i] returns the (broadcast) item for every integer i, its length is 0 and iteration yields it once.", "quantifier": "all items, item shapes, integers i", "why_tests_cant": "all integers", "anchors": ["torchimage/utils/ndspec.py:NdSpec"]}
{"id": "C70", "title": "A list of items is indexed like a Python list", "statement": "NdSpec(list of m items)[i] is item i for -m <= i < m (negative from the right) and raises IndexError otherwise; length m.", "quantifier": "all lists of well-formed items, all integers i", "why_tests_cant": "all lengths", "anchors": ["torchimage/utils/ndspec.py:NdSpec"]}
{"id": "C71", "title": "Ragged shape inference is exact", "statement": "get_ragged_ndarray returns the depth of the uniformly nested part and, per level, the common length or -1 if lengths differ; data is unchanged in strict mode.", "quantifier": "all finitely nested lists", "why_tests_cant": "nesting is unbounded", "anchors": ["torchimage/utils/ragged.py:get_ragged_ndarray"]}
{"id": "C72", "title": "Broadcasting conforms to the target", "statement": "expand_ragged_ndarray returns data whose every level has the requested length (original length where -1), each entry being the entry of the input with singleton coordinates collapsed; incompatible lengths raise ValueError.", "quantifier": "all rectangular inputs and targets", "why_tests_cant": "unbounded depth", "anchors": ["torchimage/utils/ragged.py:expand_ragged_ndarray"]}
{"id": "C73", "title": "apply / map / zip act item-wise", "statement": "NdSpec.apply(f, a1..am)[i] = f(a1[i], .., am[i]) for every index, NdSpec.map likewise, zip is apply of tupling; incompatible index lengths raise ValueError.", "quantifier": "all specs of index rank 0 or 1, all functions", "why_tests_cant": "all functions and lengths", "anchors": ["torchimage/utils/ndspec.py:NdSpec.apply", "torchimage/utils/ndspec.py:NdSpec.map", "torchimage/utils/ndspec.py:NdSpec.zip", "torchimage/utils/ndspec.py:NdSpec.agg_index_shape"]}
{"id": "C74", "title": "Axes normalisation yields valid axes", "statement": "check_axes returns axis numbers in [0, ndim) for None, slices, ints and sequences, or raises.", "quantifier": "all ranks and axis arguments", "why_tests_cant": "all integers", "anchors": ["torchimage/utils/validation.py:check_axes"]}
{"id": "C75", "title": "Edge components and magnitude follow their formulas", "statement": "all_components returns, for each selected axis, the image convolved with the edge kernel in use along that axis and with the smoothing kernels along the other axes, each with same padding; magnitude is the p-th root of epsilon plus the sum of the p-th powers of the components (no root for p = 1); both raise ValueError with fewer than two axes. Magnitudes with p = 1 of filters whose kernels are all empty are excepted (C128).", "quantifier": "all ranks, axes, kernels, paddings, exponents", "why_tests_cant": "unbounded rank, real samples", "anchors": ["torchimage/filtering/edges.py:EdgeFilter.component", "torchimage/filtering/edges.py:EdgeFilter.magnitude"]}
{"id": "C76", "title": "Response of an edge filter to a constant image", "statement": "On a constant image, with smoothing kernels of sum 1 and a padder that fills from the samples, every component is the constant times the sum of the edge kernel in use; LaplacianOfGaussian(3, sigma=1) therefore responds to constant images.", "quantifier": "all shapes, kernels, constants", "why_tests_cant": "real coefficients", "anchors": ["torchimage/filtering/edges.py:EdgeFilter.component", "torchimage/filtering/edges.py:LaplacianOfGaussian"]}
{"id": "C77", "title": "Demosaicing a mosaiced constant colour is exact", "statement": "demosaic(rgb_to_1c_bayer(x, sa), sa, clamp) = x for every image x of one colour with values in [0, clamp], at every pixel including the borders.", "quantifier": "all even sides >= 4, batch sizes, colours, alignments", "why_tests_cant": "unbounded shapes and reals; the border handling must keep the parity of the pattern", "anchors": ["torchimage/cfa/bayer_conv/gradient_corrected.py", "torchimage/cfa/bayer_conv/bayer_conv_2d.py:get_padding_layer"]}
{"id": "C78", "title": "Demosaicing is exact on affine channels in the interior", "statement": "If each channel of x is an affine function of the position (own slopes), demosaic(rgb_to_1c_bayer(x, sa), sa, clamp) equals x wherever x is in [0, clamp] and the pixel is at least two samples away from the borders.", "quantifier": "all even sides >= 4, batch sizes, slopes, alignments", "why_tests_cant": "unbounded shapes and reals", "anchors": ["torchimage/cfa/bayer_conv/gradient_corrected.py"]}
{"id": "C79", "title": "The SSIM map is the SSIM index of window statistics", "statement": "Every entry of the SSIM map is ((2 m1 m2 + K1^2)(2 cov + K2^2)) / ((m1^2 + m2^2 + K1^2)(var1 + var2 + K2^2)), where means are weighted window sums, (co)variances are window means of products minus products of means, times N/(N-1) for sample covariance with N the number of samples of the window; without cropping the score is the mean of the map over the reduced axes.", "quantifier": "all image pairs, ranks, separable kernels, axes, constants, padders that define values", "why_tests_cant": "unbounded shapes and kernels, all reals", "anchors": ["torchimage/metrics/ssim.py:SSIM._mu_sigma", "torchimage/metrics/ssim.py:SSIM._ssim_full", "torchimage/metrics/ssim.py:SSIM._scale_factor"]}
{"id": "C80", "title": "MS-SSIM formula", "statement": "With at least two weights MS_SSIM returns the mean over reduce_axes of the product of clamp(score_i, eps)^w_i (or the sum of score_i * w_i), where score_i is the mean over content_axes of the contrast-structure map (of the SSIM map for the last level) of the images halved i times by 2-sample averages; images with shape[a] / 2^(levels-1) <= kernel size are rejected.", "quantifier": "all image pairs, weights, kernels, paddings, axes", "why_tests_cant": "unbounded number of levels, all reals", "anchors": ["torchimage/metrics/ssim.py:MS_SSIM.forward"]}
{"id": "C81", "title": "safe_power is the signed power for integer tensors and exponents too", "statement": "For integer tensors as base or exponent, safe_power still returns sign(x) * max(|x|, eps)^e for fractional e and x^e for integral e.", "quantifier": "all integer or float tensors, all exponents", "why_tests_cant": "all dtype combinations, all numbers", "anchors": ["torchimage/misc/power.py:safe_power"]}
{"id": "C82", "title": "Additive noise is the documented affine function of its draws", "statement": "add_gauss_noise returns x plus |sigma| times the normal draws (x itself for sigma = 0); add_poisson_gauss_noise returns k times the Poisson draws at rates x/k plus |sigma| times the normal draws, in the shape of x; zeros get no Poisson noise; negative rates are rejected.", "quantifier": "all tensors, all sigma, all k other than 0, all draws", "why_tests_cant": "all draws of the generators", "anchors": ["torchimage/random.py:add_gauss_noise", "torchimage/random.py:add_poisson_gauss_noise"]}
{"id": "C83", "title": "describe returns the order statistics, mean and sample deviation", "statement": "For a tensor with entries, min and max are entries bounding all others, the quantiles are linear interpolations in the sorted entries, mean * n is the sum, std^2 * (n-1) is the sum of squared deviations (NaN for one entry); min <= 25% <= 50% <= 75% <= max, min <= mean <= max; the result depends only on the multiset of entries; empty tensors are an error.", "quantifier": "all real tensors of any size", "why_tests_cant": "unbounded sizes, all reals", "anchors": ["torchimage/misc/stats.py:describe"]}
{"id": "C84", "title": "pixels_per_degree follows the viewing geometry", "statement": "For positive diagonal, height and distance the result p is positive and tan(height_pix/p/2 degrees) * distance is half the display height obtained from the diagonal by Pythagoras; scaling the resolution by c scales p by c; p strictly increases with the distance; a zero height, distance or diagonal raises ZeroDivisionError. The stub hdrvdp3 accepts exactly pairs of images of one shape.", "quantifier": "all real display parameters", "why_tests_cant": "all reals", "anchors": ["torchimage/metrics/hdrvdp/pixels_per_degree.py:pixels_per_degree", "torchimage/metrics/hdrvdp/hdrvdp3.py:hdrvdp3"]}
{"id": "C85", "title": "The edge losses follow their formulas; the plain loss is a pseudometric", "statement": "For images of shape (n, c, h, w), GaussianEdgeLoss is the mean absolute difference of the vertical and horizontal edge maps (reflect padding, normalised Gaussian smoothing along the other axis), WeightedMul and WeightedDiv weight the differences by the true edges, WeightedSum compares the mean absolute edges per plane. Plain loss and WeightedSum are symmetric, non-negative and zero on equal images; the plain loss is zero exactly if the edge maps agree and satisfies the triangle inequality. WeightedDiv is not a number if a true edge is zero. The padders stay usable after each call.", "quantifier": "all images, sizes, kernel sizes, sigmas, orders", "why_tests_cant": "unbounded sizes, all reals", "anchors": ["torchimage/contrib/edge_loss.py:GaussianEdgeLoss", "torchimage/contrib/edge_loss.py:WeightedMul", "torchimage/contrib/edge_loss.py:WeightedDiv", "torchimage/contrib/edge_loss.py:WeightedSum"]}
{"id": "C86", "title": "Every edge loss is a non-negative number", "statement": "For images of equal non-empty shape all four edge losses return a non-negative real number.", "quantifier": "all images, kernel sizes, sigmas, orders", "why_tests_cant": "unbounded sizes, all reals", "anchors": ["torchimage/contrib/edge_loss.py:WeightedMul", "torchimage/contrib/edge_loss.py:WeightedDiv"]}
{"id": "C87", "title": "The deprecated padding pair agrees with same padding of stride one", "statement": "_same_padding_pair(k) equals same_padding_width(k, 1, n) for every integer k and any n; _same_padding_pair(t + 1) splits a total t >= 0 into two non-negative parts, the first equal to the second or one longer.", "quantifier": "all integers", "why_tests_cant": "unbounded integers", "anchors": ["torchimage/filtering/utils.py:_same_padding_pair", "torchimage/padding/utils.py:same_padding_width"]}
{"id": "C88", "title": "SSIM is one only for equal images", "statement": "For averaging kernels with positive weights and non-zero K1 and K2, the SSIM map is 1 everywhere exactly if the two images are equal, and likewise every reduced score is 1 exactly if the images are equal; in particular for SSIM(blur='gaussian') and SSIM(blur='mean') without padding, and for the cropped score with any value-defining padding mode (except periodize on odd sides).", "quantifier": "all images of every size and dimensionality, kernels, constants", "why_tests_cant": "uniqueness of the maximiser over all pairs of real images", "anchors": ["torchimage/metrics/ssim.py:SSIM"]}
{"id": "C89", "title": "Modes that write nothing", "statement": "When the modes 'empty' and 'zeros' (which the padder never writes) are mixed with modes that define values, forward returns, between the original samples of the unwritten axes, the other axes padded one after the other, and elsewhere whatever the fresh buffer contained; the original samples are kept; it succeeds exactly if no widened 'zeros' axis is handled before an axis on which something is written, and raises TypeError otherwise.", "quantifier": "all tensors, axes, widths, mode combinations, buffer contents", "why_tests_cant": "uninitialised memory; unbounded combinations of modes", "anchors": ["torchimage/padding/generic_pad.py:Padder._fill_value_1d", "torchimage/padding/generic_pad.py:Padder.forward"]}
{"id": "C90", "title": "Two poolings in a row are one pooling", "statement": "Pooling the result of a pooling again over the same axes (no padder) is one pooling whose weights on every axis are the first weights spread with the first stride and summed with the second weights, and whose stride is the product; in particular averages of averages with matching strides are averages, and the n-fold factor-2 downsampling of MS-SSIM is one average over 2^n samples with stride 2^n.", "quantifier": "all tensors, axes, kernels, strides that fit", "why_tests_cant": "identity of composed strided sums for unbounded kernels, strides and depths", "anchors": ["torchimage/pooling/base.py:SeparablePoolNd.forward", "torchimage/metrics/ssim.py:MS_SSIM"]}
{"id": "C91", "title": "Padding mirrors", "statement": "Padding a tensor reversed along an axis, with the widths, constants, end values and statistic lengths of that axis exchanged, gives the reversed result of padding the tensor, for every mode; in particular a padder with the same settings before and after commutes with reversing.  (False for periodize on an axis of odd size.)", "quantifier": "all tensors, axes, modes, widths", "why_tests_cant": "relates two runs for all inputs, widths beyond the axis, every mode", "anchors": ["torchimage/padding/generic_pad.py:Padder.forward"]}
{"id": "C92", "title": "Pooling mirrors", "statement": "Pooling a reversed tensor with reversed weights gives the reversed result, without a padder if the windows reach the end of the axis, and with a same padder with exchanged settings if the padding is balanced (stride 1 and odd kernels suffice); palindromic filters commute with reversing.", "quantifier": "all tensors, axes, kernels, strides, padding modes", "why_tests_cant": "relates two runs for all inputs", "anchors": ["torchimage/pooling/base.py:SeparablePoolNd.forward"]}
{"id": "C93", "title": "Metrics of reversed images", "statement": "Reversing a reduced axis of both images leaves mean and summed squared error, PSNR and the SSIM score unchanged and reverses the SSIM map, for palindromic blurs (such as the default Gaussian) and balanced padding; MS-SSIM is unchanged if the axis can be halved exactly at all levels.", "quantifier": "all pairs of images, blurs, constants, levels", "why_tests_cant": "metamorphic relation over all pairs of real images", "anchors": ["torchimage/metrics/ssim.py:SSIM", "torchimage/metrics/ssim.py:MS_SSIM", "torchimage/metrics/mse.py:MSE"]}
{"id": "C94", "title": "Unnamed axes are batch axes", "statement": "Selecting positions of an axis that is not padded, pooled, differentiated, blurred or reduced (torch.index_select, so picking one image, repeating or permuting images) commutes with padding in every mode that defines values, with pooling with and without a same padder, with the components of edge filters, with squared errors and PSNR, with the SSIM map and scores, and with MS-SSIM scores.", "quantifier": "all tensors, axes, selections, kernels, modes, padders", "why_tests_cant": "relates a batched run and any selection of its images for all shapes and settings", "anchors": ["torchimage/padding/generic_pad.py:Padder.forward", "torchimage/pooling/base.py:SeparablePoolNd.forward", "torchimage/metrics/ssim.py:SSIM", "torchimage/metrics/ssim.py:MS_SSIM", "torchimage/metrics/mse.py:MSE"]}
{"id": "C95", "title": "Exchanging axes", "statement": "Exchanging two axes of the images and renaming the axes arguments accordingly exchanges the axes of the result of padding, pooling (with and without a same padder), edge components and the SSIM map, and leaves squared errors, SSIM and MS-SSIM scores unchanged if both axes are reduced; pooling with one kernel and stride commutes with exchanging two pooled axes under the very same call.", "quantifier": "all tensors, pairs of axes, kernels, modes, padders", "why_tests_cant": "metamorphic relation over all inputs and settings", "anchors": ["torchimage/padding/generic_pad.py:Padder.forward", "torchimage/pooling/base.py:SeparablePoolNd.forward", "torchimage/metrics/ssim.py:SSIM", "torchimage/metrics/ssim.py:MS_SSIM", "torchimage/metrics/mse.py:MSE"]}
{"id": "C96", "title": "Changing the grey values", "statement": "Replacing every sample v by f v, and the padder's constants and end values by their images, commutes with padding: for every f in copying and constant modes, odd f for antisymmetric, order-preserving f for maximum, minimum and median, affine f for the remaining modes. Pooling c*x+d gives c times the pooled x plus d times the product of the kernel sums, with and without a same padder. Squared errors of c*x+d and c*y+d are c^2 times those of x and y. Multiplying both images and both constants of SSIM by c != 0 changes neither map nor scores, and likewise MS-SSIM.", "quantifier": "all images, maps of grey values, kernels, modes, padders, constants", "why_tests_cant": "relates runs for all grey value changes over all real images", "anchors": ["torchimage/padding/generic_pad.py:Padder.forward", "torchimage/pooling/base.py:SeparablePoolNd.forward", "torchimage/metrics/ssim.py:SSIM", "torchimage/metrics/ssim.py:MS_SSIM", "torchimage/metrics/mse.py:MSE"]}
{"id": "C97", "title": "Away from the border a same-padded filter ignores the padding", "statement": "At every position where the kernels do not reach over the border, a stride-one filter with a same padder returns what the filter without padding returns half a kernel earlier along every axis, whatever the padding mode (including modes that leave fresh memory), the state of the padder and the content of that memory. The value depends only on the samples covered by the kernels centred there, and is the product-weighted sum of these samples.", "quantifier": "all images of any rank, separable kernels not longer than the axes, known padding modes, padder states, contents of fresh memory", "why_tests_cant": "all images and all contents of uninitialised memory", "anchors": ["torchimage/pooling/base.py:SeparablePoolNd.forward", "torchimage/padding/generic_pad.py:Padder.forward"]}
{"id": "C98", "title": "Filters on straight-line images", "statement": "If grey values are a linear function of the position, a filter with kernels of sum one returns the same straight-line image plus, per axis, slope times the distance of the kernel's centre of mass from its middle: away from the border for every padding mode, and everywhere for smooth and odd_reflect with at least two samples per axis. Symmetric kernels of odd length (box, Gaussian) therefore return the image itself, and so does UnsharpMask.", "quantifier": "all constants and slopes, all ranks, kernels, sizes, padder states", "why_tests_cant": "infinitely many slopes, kernels and sizes", "anchors": ["torchimage/pooling/base.py:SeparablePoolNd.forward", "torchimage/pooling/gaussian.py:GaussianPoolNd", "torchimage/pooling/uniform.py:AvgPoolNd", "torchimage/filtering/sharpen.py:UnsharpMask.forward"]}
{"id": "C99", "title": "Edge responses to straight-line images", "statement": "For an edge kernel of sum zero, the component along an axis of a straight-line image is, away from the border, the slope along that axis times the moment of the edge kernel times the product of the sums of the smoothing kernels, for every padding mode that defines values; everywhere for smooth and odd_reflect. On two axes the gains are 8 (Sobel), 6 (Prewitt), 32 (Scharr), 2 if normalised; Laplace gives 0; GaussianGrad of order one a fixed positive number. Farid's edge kernel is antisymmetric with moment 0.99179702875213, its smoothing kernel symmetric, positive, of sum 1+2e-16.", "quantifier": "all straight-line images, smoothing kernels, padder states, at least two axes", "why_tests_cant": "infinitely many slopes, sizes and kernels", "anchors": ["torchimage/filtering/edges.py:EdgeFilter", "torchimage/filtering/edges.py:Sobel", "torchimage/filtering/edges.py:Farid", "torchimage/filtering/edges.py:GaussianGrad", "torchimage/filtering/edges.py:Laplace"]}
{"id": "C100", "title": "Modes given as callables", "statement": "A padding mode may be a callable. If every callable computes a rule on the lines it is given, Pad.forward is sequential padding with these rules: the result has the requested size, contains the input if the rules do, and does not depend on the fresh buffer; every rule can be supplied. Replacing named modes by the functions they stand for changes neither results nor exceptions on any input, except for periodize, where the callable periodize_1d lacks the sample that makes the length even.", "quantifier": "all callables, all mixtures of names and callables, all inputs and ranks", "why_tests_cant": "callables are arbitrary functions", "anchors": ["torchimage/padding/generic_pad.py:Padder.forward", "torchimage/padding/generic_pad.py:Padder._fill_value_1d", "torchimage/padding/generic_pad.py:Padder"]}
{"id": "C101", "title": "Order and distance are kept", "statement": "Padding with samples, statistics, constants or ramps keeps the order of images (no entry of x exceeds that of y, so no entry of the padded x exceeds that of the padded y) and enlarges no distance; pooling with non-negative weights keeps the order and multiplies distances by at most the product of the sums of the weights; a same-padded average or Gaussian filter therefore enlarges no distance.", "quantifier": "all pairs of images of one shape, all kernels with non-negative weights, widths, padder states", "why_tests_cant": "all pairs of images and all distances", "anchors": ["torchimage/padding/generic_pad.py:Padder.forward", "torchimage/pooling/base.py:SeparablePoolNd.forward", "torchimage/pooling/uniform.py:AvgPoolNd", "torchimage/pooling/gaussian.py:GaussianPoolNd"]}
{"id": "C102", "title": "Arrays and tensors in specifications", "statement": "A specification may contain numeric numpy arrays and torch tensors at any depth. NdSpec of it and NdSpec of the nested lists they stand for are the same: same shape, index position, data, length, items and iteration, and one raises exactly if the other does. Exceptions: arrays with an axis of length zero, and target lengths of zero.", "quantifier": "all nested specifications with arrays at any depth, all item and index shapes", "why_tests_cant": "all nestings of lists, arrays and tensors", "anchors": ["torchimage/utils/ragged.py:get_ragged_ndarray", "torchimage/utils/ragged.py:_recursive_expand", "torchimage/utils/ragged.py:expand_ragged_ndarray", "torchimage/utils/ndspec.py:NdSpec"]}
{"id": "C103", "title": "One axis after the other", "statement": "A same-padded pooling call widens all axes and then pools all axes. For padding rules that are linear in the samples (and for constants and ramps with any end values if the weights sum to one) this is the same as widening and pooling one axis after the other, so a call over the axes A followed by a call over the axes B equals one call over A and B. For the maximum, and for constants with other weights, it is not.", "quantifier": "all images, kernels, strides, axes, linear padder settings and padder states", "why_tests_cant": "all combinations of kernels, strides, modes and axes", "anchors": ["torchimage/pooling/base.py:SeparablePoolNd.forward", "torchimage/pooling/base.py:SeparablePoolNd.pad", "torchimage/padding/generic_pad.py:Padder.forward"]}
{"id": "C104", "title": "Filters on a ring", "statement": "With circular padding and stride one, moving the image around an axis moves the pooled image by as many samples (whatever the settings of the other axes); if all axes are circular, the sum over the result is the sum over the image times the product of the sums of the weights. Squared errors and SSIM scores do not change when both images are moved around a reduced axis (SSIM: with circular padding there), and their maps move along.", "quantifier": "all images, shifts, kernels, axes, padder states", "why_tests_cant": "all shifts of all images", "anchors": ["torchimage/pooling/base.py:SeparablePoolNd.forward", "torchimage/padding/pad_1d.py:circular_1d", "torchimage/metrics/ssim.py:SSIM.forward", "torchimage/metrics/mse.py:MSE"]}
{"id": "C105", "title": "Padding in two steps", "statement": "For edge values (replicate), straight lines (smooth), constants and statistics of whole fibres, padding an axis by some widths and then the result by further widths equals padding once by the sums of the widths. On several axes this holds, corners included, if all constants are the same and the statistics are means, or the modes are edge values and maxima, or edge values and minima. It fails for circular padding, and for different constants on different axes.", "quantifier": "all images, widths, axes, settings with these modes, padder states, buffers", "why_tests_cant": "all pairs of widths on all axes", "anchors": ["torchimage/padding/generic_pad.py:Padder.forward", "torchimage/padding/pad_1d.py:replicate_1d", "torchimage/padding/pad_1d.py:smooth_1d", "torchimage/padding/pad_1d.py:stat_1d"]}
{"id": "C106", "title": "A narrower padding is a part of a wider one", "statement": "For every mode that defines values except linear_ramp, the result of a padding with narrower widths is the part of the result with wider widths that begins at the differences of the widths before, corners included. A ramp depends on its widths.", "quantifier": "all images, axes, pairs of widths, modes, values, statistic lengths, buffers", "why_tests_cant": "the fills loop over growing windows; an error shows up at some widths only", "anchors": ["torchimage/padding/generic_pad.py:Padder.forward", "torchimage/padding/generic_pad.py:Padder._fill_value_1d", "torchimage/padding/pad_1d.py:symmetric_1d", "torchimage/padding/pad_1d.py:circular_1d"]}
{"id": "C107", "title": "Symmetries of demosaicing", "statement": "Demosaicing commutes with exchanging red and blue in the pattern (the channels are exchanged), with mirroring the image and the pattern, turning both upside down and transposing both; samples and clamp value c >= 0 times as large give a result c times as large; away from the borders the result for a part of an image, with the pattern seen from its first pixel, is the part of the result.", "quantifier": "all images and batch shapes, even sides, patterns and spellings, clamp values, buffers", "why_tests_cant": "relations between runs on all images and patterns; an asymmetric coefficient or a wrong offset shows up at some pixels only", "anchors": ["torchimage/cfa/bayer_conv/gradient_corrected.py", "torchimage/cfa/bayer_conv/bayer_conv_2d.py"]}
{"id": "C108", "title": "Demosaicing is stable and local", "statement": "If no sample changes by more than d, no measured colour changes by more than d and no estimated colour by more than 5/2 d (and this factor is reached); the result at a pixel depends on the samples at most two rows and columns away only.", "quantifier": "all pairs of images, even sides, patterns and spellings, clamp values, buffers", "why_tests_cant": "a bound over all perturbations", "anchors": ["torchimage/cfa/bayer_conv/gradient_corrected.py", "torchimage/cfa/bayer_conv/bayer_conv_2d.py"]}
{"id": "C109", "title": "MS-SSIM detects every difference", "statement": "For averaging kernels with at least two entries, all positive, weights that are not negative and positive for the first and the last level, and 0 < eps < 1, the product form of MS-SSIM is 1 everywhere exactly if the two images are equal; the sum form is the sum of the weights exactly if they are equal. In particular for MS_SSIM() on images of more than 176 samples along the content axes. For the kernel [1] this fails: images that agree after all halvings get the score 1.", "quantifier": "all pairs of images of equal shape, axes, kernels, weights, paddings that keep moments, with and without cropping, buffers", "why_tests_cant": "a statement about all pairs of different images; no finite number of pairs shows that the score separates them", "anchors": ["torchimage/metrics/ssim.py"]}
{"id": "C110", "title": "Brightness shifts", "statement": "If the weights of the blur sum to one and the padder fills with values that are linear in the samples and grow with them (samples, reflections, smooth continuation, means), making the two images a and d brighter changes only the comparison of the means in the SSIM map; for MS-SSIM it changes only the last level. An image and a brighter copy (averaging kernels) get the luminance (2 m1 m2 + K1^2) / (m1^2 + m2^2 + K1^2) of the two local means; two constant images a and d get (2 a d + K1^2) / (a^2 + d^2 + K1^2) as SSIM, its clamp to the power of the last weight as MS-SSIM. The mean squared error of an image and a d brighter one is d^2, the peak signal-to-noise ratio 20 log10 (max_value / |d|).", "quantifier": "all images, shifts, axes, kernels with unit sums, paddings of the kind named, K1 and K2, weights, buffers", "why_tests_cant": "closed forms for all images and shifts", "anchors": ["torchimage/metrics/ssim.py", "torchimage/metrics/mse.py"]}
{"id": "C111", "title": "Symmetries of the edge filters", "statement": "Reversing an axis of the image reverses every component of an edge filter; the component along that axis is also multiplied by the parity of the edge kernel (-1 for Sobel, Prewitt, Scharr, Farid and odd Gaussian derivatives, 1 for Laplace and even ones). Magnitudes with a power that cancels the parity are reversed only. With circular padding, moving the image around an axis moves components and magnitude. For an edge kernel of sum zero the components of c*x+e are c times the components. Magnitudes with p = 1 of filters whose kernels are all empty are excepted (C128).", "quantifier": "all images of any rank, axes, reversed axes, shifts, kernels with the stated parity, padders that treat both ends alike and follow the change, powers, roots, epsilons", "why_tests_cant": "The claim quantifies over images, kernels and padding settings; a test would compare two sampled runs.", "anchors": ["torchimage/filtering/edges.py:44-230", "torchimage/pooling/base.py"]}
{"id": "C112", "title": "Unsharp masking: symmetries and the amount", "statement": "UnsharpMask commutes with reversing an axis (symmetric kernels and padding), moving around an axis (circular padding), exchanging axes, selecting from a batch, and with affine changes of the grey values (threshold scaled by |c|, kernels of sum one). It is affine in the amount; amount -1 without threshold is the blur; no sample moves by more than |amount| times its difference from the blur; the range is left by at most |amount| times its width; with circular padding and averaging kernels the mean is kept.", "quantifier": "all images of any rank, kernels, padders, amounts, thresholds meeting the stated conditions", "why_tests_cant": "Relations between runs on infinitely many images and parameters.", "anchors": ["torchimage/filtering/sharpen.py:34-49", "torchimage/pooling/base.py"]}
{"id": "C113", "title": "Modes that coincide", "statement": "Padding settings of the same family give the same image. Edge values, statistics of one sample, mirrors about the edge asked for one sample, and nearly every mode on an axis of one sample agree; so do smooth and odd_reflect for one sample or on axes of two; circular, periodize on even axes and reflect on axes of two; minimum and the (lower) median of at most two samples; constant and a ramp of one sample. Hence with kernels of at most three entries and stride one, same-padded filters and the Sobel, Scharr and Prewitt edge filters do not distinguish replicate, symmetric and odd_symmetric, nor smooth and odd_reflect. Magnitudes with p = 1 of filters whose kernels are all empty are excepted (C128).", "quantifier": "all images of any rank and size, widths, axes, settings within one family, kernels of at most three entries, powers and epsilons", "why_tests_cant": "Equality of two runs over all images and widths; sampled sizes miss the boundary cases (one, two or an odd number of samples).", "anchors": ["torchimage/padding/pad_1d.py", "torchimage/padding/generic_pad.py:127-262", "torchimage/filtering/edges.py:44-230"]}
{"id": "C114", "title": "Edges and edge losses of changed images", "statement": "With linear padding the components of an edge filter are linear in the image; if two images differ by at most d, pooled images differ by at most d times the product of the sums of absolute weights, and so do edge components (with the smoothing kernels on the other axes). The edge loss depends only on the difference of the images: adding one image to both does not change it, and it is at most d times the gain of the kernels. WeightedSum never exceeds the plain loss. Multiplying both images by a (and adding constants, for kernels of sum zero) multiplies the plain loss and WeightedSum by |a|, WeightedMul by a|a| and WeightedDiv by the sign of a. Reversing or exchanging the picture axes keeps plain loss and WeightedSum; WeightedMul gets the sign of the kernel along the reversed axis. All of this holds for the losses that the constructor builds from odd kernel sizes.", "quantifier": "all images, kernels, smoothing kernels, padding settings meeting the stated conditions, all factors and offsets, any initial memory", "why_tests_cant": "Inequalities and equalities between runs over all images; a test only samples differences.", "anchors": ["torchimage/contrib/edge_loss.py", "torchimage/filtering/edges.py:44-230", "torchimage/pooling/base.py"]}
{"id": "C115", "title": "Edges at reflected borders", "statement": "If the samples are reflected at the borders and the edge kernel changes its sign when it is read backwards (Prewitt, Sobel, Scharr, Farid, Gaussian derivatives of odd order), or they are reflected through the border samples and the kernel reads the same backwards with sum zero (second difference), then the component along an axis is zero on the first and last sample of that axis, for every image; the magnitude in the corners is that of no edge. Hence WeightedDiv of any odd order, which divides by the true edges, is not a number for any pair of images that are not empty. Magnitudes with p = 1 of filters whose kernels are all empty are excepted (C128).", "quantifier": "all images of any rank and size, all such kernels, any smoothing kernels, any power and epsilon, any initial memory", "why_tests_cant": "A statement about every image; a finite sample of images with a NaN loss does not exclude an image with a number.", "anchors": ["torchimage/contrib/edge_loss.py", "torchimage/filtering/edges.py:44-230", "torchimage/padding/pad_1d.py"]}
{"id": "C116", "title": "Metrics of parts and of batches", "statement": "Scoring parts first and averaging gives the score of the whole: the mean squared error over all axes is the mean of the errors over any axes (and the sum the sum), the SSIM and MS-SSIM scores over all axes are the means of the scores over any axes (for SSIM also with cropped borders), and the edge losses of a batch are the means of the losses of its members, so no image influences the loss of another one; WeightedDiv of a batch is a number exactly if no true edge is zero. The peak signal-to-noise ratio of the whole is at most the mean of the ratios of the parts, equal only if they are all the same, and at least the smallest of them.", "quantifier": "all images, axes, kernels, padding settings and sizes meeting the stated conditions, any batch size, any initial memory", "why_tests_cant": "Relates runs with different reduction axes and batch sizes for all images; a test samples finitely many.", "anchors": ["torchimage/metrics/base.py", "torchimage/metrics/mse.py", "torchimage/metrics/psnr.py", "torchimage/metrics/ssim.py", "torchimage/contrib/edge_loss.py"]}
{"id": "C117", "title": "Geometry of the squared error", "statement": "For every reduction and entry: the error of a mixture l x + (1-l) x' of two predictions is the mixture of their errors minus l(1-l) times the error between them, so for 0 <= l <= 1 it is at most the mixture and at most the larger of them (and the PSNR of the mixture at least the smaller one); roots of errors obey the triangle inequality. The mean squared error of the whole is the square of the difference of the mean brightnesses plus the error without these means, so the mean is the best constant prediction. Samples that differ by at most d give mean errors of at most d^2 and a PSNR of at least that of d^2, and every single squared error is at most the mean times the number of samples.", "quantifier": "all images of equal shape, all axes without repetition, all reductions, all mixing weights", "why_tests_cant": "Identities and inequalities over all images and real weights.", "anchors": ["torchimage/metrics/mse.py", "torchimage/metrics/psnr.py", "torchimage/metrics/base.py"]}
{"id": "C118", "title": "Brightness, energy and error of filtered images", "statement": "With stride one and fair borders (circular padding with any kernels, or symmetric padding with kernels of odd length that read the same backwards) same-padded separable filtering multiplies the sum over the image, and over every part that is whole along the filtered axes, by the product of the kernel sums; averages keep the mean brightness. The sum of squares grows at most by the square of the product of the sums of absolute weights, the sum of absolute values at most by that product, and so does the squared error between two images filtered alike: averaging both images never increases their squared error over the filtered axes and never decreases their PSNR. GaussianPoolNd with an odd size and symmetric padding is an instance. Without the conditions (reflect, replicate, even sizes, asymmetric kernels) sums change and averaging can increase the error.", "quantifier": "all images, kernels, axes, sizes and reductions over the filtered axes meeting the stated conditions, any initial memory", "why_tests_cant": "Identities and inequalities over all images, kernels and shapes.", "anchors": ["torchimage/pooling/base.py", "torchimage/pooling/gaussian.py", "torchimage/padding/generic_pad.py", "torchimage/padding/pad_1d.py", "torchimage/metrics/mse.py", "torchimage/metrics/psnr.py"]}
{"id": "C119", "title": "Strided pooling keeps every s-th entry of filtering", "statement": "Without a padder a separable pooling module returns, on the pooled axes, every s-th entry of what the same module returns after to_filter, beginning with the first. With same padding the same holds, beginning with the sample at which its first window is centred (half the kernel size less the padding before), for every mode except ramps; with ramps it fails. Averaging side-by-side blocks that cover the image keeps the mean brightness and never increases the mean squared error of two images pooled alike; the downsampling step of MS-SSIM does so for even sizes. Blocks that leave samples over change the mean.", "quantifier": "all images, kernels, strides, axes, modes other than ramps, any initial memory", "why_tests_cant": "Relation between two modules over all sizes, kernels and strides, and an inequality over all pairs of images.", "anchors": ["torchimage/pooling/base.py", "torchimage/pooling/uniform.py", "torchimage/padding/utils.py", "torchimage/padding/generic_pad.py", "torchimage/metrics/ssim.py", "torchimage/metrics/mse.py"]}
{"id": "C120", "title": "Shape of Gaussian kernels", "statement": "The weights of gaussian_kernel_1d of order zero rise strictly up to index kernel_size // 2 and fall strictly from there; neighbouring weights have the quotient of the bell curve, and the kernel is log-concave with the same bend everywhere. The sign of sigma does not matter. A larger sigma lowers the weight in the middle and raises the one at the end; for growing sigma the kernel tends to the average, for sigma near zero to the kernel that leaves the image alone. For odd sizes the kernel of order one is -t/sigma^2 times that of order zero, and three consecutive orders obey the recursion of the Hermite polynomials.", "quantifier": "all kernel sizes, all sigma other than zero, all orders", "why_tests_cant": "Strict inequalities and limits over real sigma and all sizes and orders.", "anchors": ["torchimage/pooling/gaussian.py"]}
{"id": "C121", "title": "Statistics of changed images", "statement": "describe of a * x + b changes the mean and the order statistics like the entries for a >= 0 and exchanges minimum with maximum and lower with upper quartile for a <= 0; the standard deviation is multiplied by |a|. If every entry of x is at most the entry of y, the same holds for mean, minimum, quartiles and maximum. Equal entries give equal statistics; the standard deviation is zero only for equal entries and bounded by half the range (up to Bessel's factor).", "quantifier": "all images with entries, all real a and b", "why_tests_cant": "Laws between the results for different images, over all images of all sizes.", "anchors": ["torchimage/misc/stats.py"]}
{"id": "C122", "title": "Laws of fractional powers", "statement": "safe_power with a fractional exponent never returns NaN, is odd, multiplicative and order preserving (for positive exponents) and is undone by the inverse power. This holds for numbers other than zero; zero is treated like epsilon, so the order is violated between zero and positive numbers below epsilon, and zeros come back as epsilon.", "quantifier": "all floating point tensors, fractional exponents, epsilon > 0", "why_tests_cant": "Algebraic laws over all real bases and exponents; the exception lies in an interval of width 1e-6.", "anchors": ["torchimage/misc/power.py"]}
{"id": "C123", "title": "Laws of outer products and polynomials", "statement": "The sum of all entries of outer(u, v) is the product of the sums of u and v, and outer is linear in each factor. poly1d agrees with Horner's rule, ignores leading zeros, is linear in the coefficients, and a polynomial with a root r is (x - r) times another poly1d.", "quantifier": "all tensors over a commutative ring, all coefficient lists with at least two entries", "why_tests_cant": "Algebraic identities over all shapes, degrees and values.", "anchors": ["torchimage/misc/outer.py", "torchimage/misc/polynomial.py"]}
{"id": "C124", "title": "Filtering waves", "statement": "A cosine wave that a padding mode continues (whole periods for circular; whole half periods with a crest or a zero at the right place for symmetric, antisymmetric, reflect and odd_reflect) is an eigenfunction of same-padded filtering with symmetric kernels of odd length: the filter multiplies it by the gain of the kernel at its angle, at the border as well as inside and for any number of axes. Any kernel returns a wave of the same period. Averages do not amplify waves, positive averages damp every non-constant one, the average of k samples removes waves that make whole turns in k samples, and unsharp masking multiplies a wave by 1 + amount * (1 - gain).", "quantifier": "all image sizes, dimensions, kernels, angles and phases that the modes continue", "why_tests_cant": "A statement about all frequencies, sizes and kernels, with transcendental functions; tests see rounded samples of single waves.", "anchors": ["torchimage/pooling/base.py", "torchimage/padding/generic_pad.py", "torchimage/padding/pad_1d.py", "torchimage/pooling/uniform.py", "torchimage/filtering/sharpen.py"]}
{"id": "C125", "title": "Specifications with several index axes", "statement": "NdSpec.map, apply and zip act on the item at every index tuple, for any number of index axes: item key of the result is the function of the items at key, single items are used for every tuple, and the result has the same index shape, provided that the results have one common number of axes (otherwise IndexError can be raised, with a concrete case). Rectangular nested data is stored with its leading axes as index axes and can be read back at every tuple. Ragged index axes and different index shapes are rejected with ValueError.", "quantifier": "all numbers and lengths of index axes, all items and functions", "why_tests_cant": "The repository only uses one index axis; the general recursion over arbitrary nesting depth cannot be enumerated.", "anchors": ["torchimage/utils/ndspec.py", "torchimage/utils/ragged.py"]}
{"id": "C126", "title": "Arguments that are refused, and the exceptions raised", "statement": "Which inputs are refused and how: strides below one (ValueError at construction), tensors without axes in Padder.forward (AssertionError), axes that do not exist in padding and pooling (AssertionError or IndexError by range; axis numbers between -2*ndim and -ndim-1 are silently counted from the end a second time by pooling), unknown mode names (ValueError at the first axis that is widened, after the axes before it succeeded), every bad argument of any_conv_1d (RuntimeError, and success in exactly the remaining cases), repeated axes in average pooling that excludes padding (AssertionError), zero strides in the size helpers (ZeroDivisionError), padding lists that are not admissible (AssertionError, exactly), rows of widths that are numbers in pad_width_format (TypeError), rows without entries (ValueError) and lists in place of numbers (TypeError) in n_original_elements_nd, several edge kernels or edge axes (ValueError) and edge losses of tensors with at most two axes (AssertionError).", "quantifier": "all arguments of the stated kinds, all tensors, padders and kernels", "why_tests_cant": "Which exception wins depends on the order of checks over arbitrary combinations of settings and axes.", "anchors": ["torchimage/utils/validation.py", "torchimage/padding/generic_pad.py", "torchimage/padding/utils.py", "torchimage/pooling/base.py", "torchimage/pooling/uniform.py", "torchimage/pooling/operator.py", "torchimage/shapes/conv_like.py", "torchimage/filtering/edges.py", "torchimage/contrib/edge_loss.py"]}
{"id": "C127", "title": "Axes may be repeated", "statement": "Padding along a list of axes in which an axis occurs several times is padding the axes one after the other, each step on the full previous result, and an axis grows by the sum of the widths of its occurrences; the only exceptions are the modes linear_ramp and periodize, whose axes must occur once (with witnesses that the results differ otherwise). For edge replication and constants, repeating an axis is padding once with the summed widths. With one setting for all axes, padding or pooling a list of axes is doing the first and then the rest on the result.", "quantifier": "all padders, all tensors, all lists of axes including repeated ones, all widths; all kernels and strides for pooling without a padder", "why_tests_cant": "A single buffer is filled once per occurrence, over the border of the region already filled; correctness depends on arbitrary combinations of widths, modes and repetitions.", "anchors": ["torchimage/padding/generic_pad.py", "torchimage/padding/pad_1d.py", "torchimage/pooling/base.py"]}
{"id": "C128", "title": "Inputs left alone", "statement": "Padding, pooling and edge filtering either return the very tensor they were given or a new one, and no call of EdgeFilter.magnitude changes the caller's image except in one case. A padder returns its argument exactly if the shape is unchanged, i.e. if nothing is to be widened; pooling returns its argument exactly if all kernels in use are empty, with and without a padder. magnitude with a power other than 1 never modifies the image, even if it raises; with power 1 it does not if one of the two kernels has weights. In the remaining case (power 1, both kernels empty) the in-place additions go into the image: it is doubled once per axis after the first, epsilon is added to it, and it is returned, which differs from the sum of the components from three axes on.", "quantifier": "all padders with named modes, all poolings, all edge filters, all images, axes, powers and epsilons", "why_tests_cant": "Aliasing depends on whether every step of a chain of filters had nothing to do; a test notices a modified input only if it compares the input afterwards, for the particular degenerate kernels.", "anchors": ["torchimage/filtering/edges.py", "torchimage/padding/generic_pad.py", "torchimage/pooling/base.py"]}
{"id": "C129", "title": "Adjoints, order and composition of filters on rings and between mirrors", "statement": "Same-padded filters with stride one behave like convolutions if every axis is a ring (circular padding), or lies between half-sample mirrors (symmetric padding) and the kernels have odd length and read the same backwards. The filter with the kernels read backwards is the adjoint (for odd lengths): the scalar product of y with the filtered x is that of x with the y filtered backwards, over the image and over every part which is whole along the filtered axes. Two such filters of any axes may be exchanged. Two filters of the same axes in a row are one filter with the convolved kernels, unless both lengths are even. On a ring the components of Sobel, Prewitt, Scharr and Farid are antisymmetric, so orthogonal to the image; every edge component whose kernel sums to zero sums to zero; the Laplacian is self-adjoint and negative (the scalar product of an image with its Laplacian is at most zero), also between mirrors. The conditions are needed: witnesses are given for mirrors at the samples, kernels that do not read the same backwards, even lengths and constant borders.", "quantifier": "all poolings with stride one, all kernels and padders with these modes, all images of any number of axes, all pairs of images", "why_tests_cant": "Adjointness is a statement about all pairs of images, and the border terms which break it vanish for images that are constant or symmetric near the border, as test images often are.", "anchors": ["torchimage/pooling/base.py", "torchimage/padding/pad_1d.py", "torchimage/filtering/edges.py"]}
{"id": "C130", "title": "Rounding errors of pooling and of the mean squared error", "statement": "Let every arithmetic operation have a relative error of at most u (no overflow or underflow), let the weights be rounded when they are converted to the type of the image, and let sums be evaluated in any order and grouping, with or without fused multiply-add. Then the separable pooling raises the same exceptions, returns the same shape and leaves the padder in the same state as with exact numbers, for every object and argument. Every entry of the result is off by at most (1 + u)^n - 1 times the value which the absolute weights give for the absolute values of the padded image, with n the number of weights of all kernels plus one per kernel; this is at most n u / (1 - n u), at most the gain of the filter times the largest value, a relative error for non-negative weights and images, and zero for zero images. Two ways to evaluate differ by at most twice that. The bound is reached for kernels with one weight. The mean squared error has a relative error of at most (1 + u)^(n + 4) - 1 with n squares per entry, so it is never negative and vanishes exactly where the images agree. Relative to the result the error of a difference filter is not bounded (witness).", "quantifier": "all unit roundoffs u \u2265 0, all accurate arithmetics, all poolings, padders, images and axes; all pairs of images of equal shape, all reductions", "why_tests_cant": "Tests compare with a tolerance on a few images computed by one build of PyTorch; the order of the additions depends on the machine, the number of threads and the strides.", "anchors": ["torchimage/pooling/base.py", "torchimage/metrics/mse.py", "torchimage/metrics/base.py"]}
{"id": "C131", "title": "Pooling of integer images", "statement": "For an image of a signed integer type with b bits the weights are converted to that type, which drops their digits after the point, and products and sums wrap around. The separable pooling of such an image gives integers of the type which agree modulo 2^b with the exact filter with the cut weights, whatever happens between the axes; if that result fits into the type it is the result. With integer weights the result is the exact one if it fits. If along one axis all weights are smaller than one the result is zero everywhere: AvgPoolNd with a window of at least two samples and GaussianPoolNd with at least two weights of order zero turn every integer image into zeros. Padding modes which copy samples keep integer images.", "quantifier": "all numbers of bits, all poolings, all padders and images with integer entries, all axes", "why_tests_cant": "The tests use floating-point images only; an integer image raises no exception and gives an image of the right shape.", "anchors": ["torchimage/pooling/base.py", "torchimage/pooling/uniform.py", "torchimage/pooling/gaussian.py"]}
{"id": "C132", "title": "Padding of integer images", "statement": "For an image of a signed or unsigned integer type the padded buffer has that type. With every mode but the statistics the result of GenericPadNd.forward is the exact padding of the numbers, reduced modulo 2^bits, where padding constants lose their digits after the point and linear_ramp is the constant end value: torch.linspace in the type of the image has no fractions, so linear_ramp does the same as constant with the end values. If the exact result fits into the type it is the result. Modes that copy or compare samples (including median, maximum and minimum) are exact. A padding with mean raises RuntimeError as soon as something is padded. Apart from mean and callables, integer images are refused exactly when the image of their numbers is, with the same exception, and the shapes agree.", "quantifier": "all integer types, all padders, images and axes, repeated axes included, all contents of the uninitialised buffer", "why_tests_cant": "The tests use floating-point images only; an integer image raises no exception with linear_ramp or the odd modes and gives an image of the right shape.", "anchors": ["torchimage/padding/generic_pad.py", "torchimage/padding/pad_1d.py"]}
{"id": "C133", "title": "Filtering of integer images with padding", "statement": "For an image of a signed or unsigned integer type SeparablePoolNd.forward, with or without a padder, gives the exact result of filtering the numbers with weights cut to integers (and padding constants cut to integers), reduced modulo 2^bits: overflow in the padding, between the axes and within the sums does not matter. If the exact result fits into the type it is the result. With integer weights and constants, and no ramp or statistics, this is the filter of the numbers. If the weights along one axis are all smaller than one, every image gives zeros, whatever the padding is.", "quantifier": "all integer types, all kernels, strides, padders, images and axes", "why_tests_cant": "The tests filter floating-point images only; an integer image raises no exception and gives an image of the right shape.", "anchors": ["torchimage/pooling/base.py", "torchimage/padding/generic_pad.py"]}
{"id": "C134", "title": "Edge filters on integer images", "statement": "For an image of a signed or unsigned integer type every component of an EdgeFilter is, modulo 2^bits, the response of the numbers to the kernels cut to integers; the shortcut for (-1, 0, 1) and (1, -2, 1) makes no difference for any kernel. Sobel, Prewitt, Scharr and Laplace without normalisation respond as to the numbers modulo 2^bits, and exactly if the response fits. Normalised filters and Farid give zeros for every image. The magnitude is the root of a number that agrees with the sum of the powers of the components modulo 2^bits only, and a float epsilon other than zero raises RuntimeError.", "quantifier": "all integer types, all kernels, padders without statistics, images, axes and powers", "why_tests_cant": "The tests compare with scipy on floating-point images only; uint8 pictures raise no exception and give an image of the right shape.", "anchors": ["torchimage/filtering/edges.py", "torchimage/pooling/base.py"]}
{"id": "C135", "title": "Unsharp masking of integer images", "statement": "For an image of a signed or unsigned integer type UnsharpMask.forward returns v + amount*d at every position, where d is the difference of the pixel v and the blur with weights cut to integers, taken modulo 2^bits; with a positive threshold the pixel is kept if |d|, again taken modulo 2^bits, is below it. With integer weights and without overflow this is the unsharp mask of the numbers. If the weights along one axis are all smaller than one (any average or Gaussian over two or more samples), neighbours do not count at all: without a threshold the image is multiplied by 1 + amount.", "quantifier": "all integer types, images, axes, kernels, amounts, thresholds and padders", "why_tests_cant": "The tests sharpen floating-point images only; a uint8 picture raises no exception and gives a plausible, merely brighter, picture.", "anchors": ["torchimage/filtering/sharpen.py:43-49", "torchimage/pooling/base.py:191-228"]}
{"id": "C136", "title": "Squared error and PSNR of integer images", "statement": "For two images of a signed or unsigned integer type of the same shape MSE with reduction none gives the squared difference modulo 2^bits at every position, MSE with reduction sum the sum of these numbers modulo 2^64, and with the default reduction mean both MSE and PSNR raise RuntimeError. The error at a position is zero iff the pixels differ by a multiple of 2^ceil(bits/2), and it is the true one iff the true one is a number of the type. Exchanging the images changes nothing.", "quantifier": "all integer types, images, axes and reductions", "why_tests_cant": "The tests compare floating-point images; wrapped squares are plausible numbers, and only differences of 16 grey levels or more wrap.", "anchors": ["torchimage/metrics/mse.py:6-8", "torchimage/metrics/base.py:36-60", "torchimage/metrics/psnr.py:15-18"]}
{"id": "C137", "title": "SSIM of integer images", "statement": "For two images of a signed or unsigned integer type of the same shape the SSIM map is the SSIM index of the images, squares and products blurred with weights cut to integers, where all sums and products of integers are taken modulo 2^bits. If the weights of the blur along one content axis are all smaller than one, as in SSIM() and SSIM(blur='mean'), the map and the score of any two images are 1.", "quantifier": "all integer types, images, axes, kernels and padders, nonzero K1 and K2", "why_tests_cant": "The tests compare floating-point images; uint8 pictures raise no exception, and a score of 1 for identical pictures is what a test would expect.", "anchors": ["torchimage/metrics/ssim.py:99-186", "torchimage/pooling/base.py:191-228"]}
{"id": "C138", "title": "Padding and pooling of images with NaN or infinite pixels", "statement": "Let some pixels of an image be infinite or NaN. Padding it (all modes but statistics and callables) and pooling it (any kernel, stride, padder) fails exactly if it does with any numbers in their place, with the same exception and the same state of the padder afterwards, and every finite pixel of the result is the one obtained with any numbers in their place; if there are NaN but no infinities this is true for the statistics too. Modes that repeat pixels treat NaN and infinities as any other values. A pixel of the pooled image is finite iff all pixels of its window in the padded image are, whatever the weights: a weight of zero does not hide a NaN or an infinity. It is +-infinity iff some infinite pixel of the window, with the sign of its weight, pulls that way and every other pixel of the window is finite or pulls the same way; everything else not finite is NaN. A statistic of a line with a NaN is NaN; without NaN the maximum, minimum and (lower) median follow the order of the numbers and infinities, and the mean is infinite iff there are infinities, all of one sign. Which pixels (and which uninitialized memory) decide whether an output pixel is finite depends only on the shape and the settings, not on the pixels.", "quantifier": "all images, sets of pixels that are not finite, modes but callables, kernels, strides, axes, fillings", "why_tests_cant": "The tests have no pixels that are not finite; which outputs are affected depends on all modes, windows and axes together.", "anchors": ["torchimage/padding/generic_pad.py:160-262", "torchimage/padding/pad_1d.py:1-400", "torchimage/pooling/base.py:74-97", "torchimage/pooling/base.py:191-228"]}
{"id": "C139", "title": "Edges, sharpening and squared errors of images with NaN or infinite pixels", "statement": "Let some pixels of an image be infinite or NaN. Components of edge filters, UnsharpMask and MSE fail exactly if they do with any numbers in their place, with the same exception, and every finite entry of the result is the one obtained with any numbers in their place. A sharpened pixel is finite iff the pixel and its blur are, also with amount zero or below the threshold. A squared error, or a sum of them, is finite iff all pixels it covers are, in both images, and a mean iff moreover it covers any; none of them is ever -infinity. The difference taken for kernels (-1, 0, 1) is finite iff the two outer pixels are: unlike a pooling it passes over the pixel in the middle; for (1, -2, 1) all three count.", "quantifier": "all images, sets of pixels that are not finite, filters, axes, amounts, thresholds, reductions", "why_tests_cant": "The tests have no pixels that are not finite; the shortcuts of the edge filters differ from the pooling only on such images.", "anchors": ["torchimage/filtering/edges.py:57-87", "torchimage/filtering/sharpen.py:43-49", "torchimage/metrics/mse.py:6-8", "torchimage/metrics/base.py:36-60"]}
{"id": "C140", "title": "Structural similarity of images with NaN or infinite pixels", "statement": "Let some pixels of two images be infinite or NaN, and let the blur of SSIM pad without statistics or callables. SSIM fails exactly if it does with any numbers in their place, with the same exception and the same state of the padder, and every finite entry of the map or score is the one obtained with any numbers in their place. An entry of the map is NaN if one of its two means is not finite (without a padder: as soon as a pixel of the window is not finite in either image, whatever its weight); otherwise it is the SSIM index as a quotient of numbers (infinite or NaN only for a denominator of zero). A score is finite iff all entries left by cropping that it covers are, and there are some. With sample covariance and a window of a single sample all entries and scores are NaN for all images, also for finite ones.", "quantifier": "all pairs of images, sets of pixels that are not finite, blurs, padders without statistics and callables, constants, axes", "why_tests_cant": "The tests have no pixels that are not finite and no window of one sample; that five blurred images are finite together depends on all settings.", "anchors": ["torchimage/metrics/ssim.py:75-97", "torchimage/metrics/ssim.py:99-117", "torchimage/metrics/ssim.py:119-124", "torchimage/metrics/ssim.py:126-138", "torchimage/metrics/ssim.py:140-186"]}
{"id": "C141", "title": "Rounding errors of unsharp masking and of edge filters", "statement": "Let every scalar product, sum, difference and product be computed with a relative error of at most u (the weights and the amount are rounded as well). Unsharp masking then fails or succeeds as with exact arithmetic, with the same shape and state of the padder. With a same-padded blur of n roundings per sample (its weights and window lengths), and M the absolute weights applied to the absolute values of the padded image, every sample is off by at most ((1+u)^(n+4) - 1) (|x| + |amount| (|x| + M)), unless its difference to the blurred image is as close to a positive threshold as rounding errors; then by at most |amount| times the threshold more, which does happen. A component of an edge filter with a copying smoothing padder is off by at most ((1+u)^(e+n) - 1) times the absolute smoothing weights applied to the scale of the edge step; a kernel taken for (-1, 0, 1) is computed as a difference with a single rounding (e = 1) whose scale is the difference itself, so where all differences are zero, the result is exactly zero, which other edge kernels do not promise.", "quantifier": "all images, kernels, axes, padders, amounts, thresholds, roundings", "why_tests_cant": "Tests compare single results with a tolerance; they do not bound errors, nor find samples at the threshold.", "anchors": ["torchimage/filtering/sharpen.py:43-49", "torchimage/filtering/edges.py:57-87"]}
{"id": "C142", "title": "Bayer mosaics of integers", "statement": "Downsampling a Bayer mosaic of integers (of any width, signed or not) to RGB accepts and rejects what it does for floating-point mosaics. Red and blue are the stored values; green is half of the sum of the two green samples, where this sum wraps to the integer type: so it is the result for the converted mosaic exactly if every sum of two green samples can be stored, and for an unsigned type green is at most half of the largest number of the type (uint8 greens of 200 give 72, a white mosaic gets a green of 127). Demosaicing an integer mosaic raises an AssertionError for a name that is not a Bayer pattern, and else always a RuntimeError.", "quantifier": "all integer types, mosaics and names of patterns", "why_tests_cant": "Tests use floating-point mosaics; the wrapped sum looks like an ordinary sample.", "anchors": ["torchimage/cfa/utils/bayer_to_rgb.py:19-72", "torchimage/cfa/bayer_conv/bayer_conv_2d.py:85-100", "torchimage/cfa/bayer_conv/gradient_corrected.py:56"]}
{"id": "C143", "title": "Bayer convolutions and demosaicing of mosaics with NaN or infinite samples", "statement": "A Bayer convolution and demosaicing of a mosaic with NaN or infinite samples raise what they raise for any mosaic of this shape. A convolved pixel is NaN exactly if its window (continued by reflection) holds NaN, an infinite sample with weight zero, or infinite products of both signs; else it is infinite exactly if an infinite sample has a weight that is not zero, with the sign of this product; finite results agree with those of every mosaic with the same finite samples. Demosaicing clamps: no result is infinite; an estimate is NaN under the same condition on its 5 x 5 window and Malvar's weights, and an infinite sum becomes the upper bound or zero, like a white or black sample; measured samples are clamped and keep NaN; where the window is finite, the result is that of every mosaic with the same finite samples.", "quantifier": "all mosaics, patterns, kernels, sizes and clamping bounds", "why_tests_cant": "Tests use finite mosaics only; an infinite sample is turned into NaN and into ordinary looking samples, depending on weights and position.", "anchors": ["torchimage/cfa/bayer_conv/bayer_conv_2d.py:85-100", "torchimage/cfa/bayer_conv/gradient_corrected.py:14-56"]}
{"id": "C144", "title": "Rounding errors of demosaicing", "statement": "Let every scalar product of demosaicing be computed in any order with a relative error of at most u per operation and rounded weights. Demosaicing then raises the same exceptions as with exact arithmetic or returns the same shape; measured samples are the same, and every estimate is off by at most (1+u)^26 - 1 times the absolute weights applied to the absolute values of its window, which is at most 5/2 times their largest absolute value (twice for green). The result stays between 0 and the clamping bound.", "quantifier": "all mosaics, patterns, sizes, roundings and orders of summation", "why_tests_cant": "Tests compare single results with a tolerance; they do not bound errors for all mosaics.", "anchors": ["torchimage/cfa/bayer_conv/bayer_conv_2d.py:85-100", "torchimage/cfa/bayer_conv/gradient_corrected.py:14-56"]}
{"id": "C145", "title": "Polynomials and outer products of integers", "statement": "poly1d of a tensor of integers (of any width, signed or not): with integer coefficients, at least two, the result has the type of the tensor and every entry is the value of the polynomial wrapped to the type, so it is correct exactly if the correct value can be stored. If the linear coefficient is a float, the result is a floating-point tensor, in which the powers of the entries, but not the products with the coefficients or the sums, are wrapped to the integer type. If the linear coefficient is an int and another coefficient is a float, a RuntimeError is raised; no coefficients are an IndexError and one coefficient a TypeError; nothing else is raised. An outer product of integers holds the products wrapped to the type.", "quantifier": "all integer types, tensors and lists of coefficients", "why_tests_cant": "Tests use small values or floats; a wrapped power looks like an ordinary number, and whether floats are accepted depends on which coefficient they are.", "anchors": ["torchimage/misc/polynomial.py:4-40", "torchimage/misc/outer.py:4-27"]}
{"id": "C146", "title": "Polynomials and outer products with NaN or infinite entries", "statement": "poly1d of a tensor with NaN or infinite entries raises what it raises for any tensor. A finite entry gives the value of the polynomial, NaN gives NaN, and no entry that is not finite gives a finite value. At plus or minus infinity the result is infinite with a given sign exactly if every coefficient but the constant one, times the power of the infinite entry, is infinite with this sign, and else NaN; so a zero coefficient, even the leading or the linear one, makes it NaN (x^2 - 3 is NaN at infinity). An entry of an outer product is finite exactly if both factors are.", "quantifier": "all tensors and lists of finite coefficients", "why_tests_cant": "Tests use finite numbers only.", "anchors": ["torchimage/misc/polynomial.py:4-40", "torchimage/misc/outer.py:4-27"]}
{"id": "C147", "title": "Rounding errors of polynomials and outer products", "statement": "Let every product, every sum and every conversion of a coefficient in poly1d have a relative error of at most u. poly1d then raises the same exceptions as with exact arithmetic; with n coefficients, every value is off by at most (1+u)^(n+2) - 1 times the polynomial with the absolute values of the coefficients at the absolute value of the entry, which bounds the relative error if coefficients and entries are not negative. The entries of an outer product have a relative error of at most u.", "quantifier": "all tensors, lists of coefficients and roundings", "why_tests_cant": "Tests compare single results with a tolerance; they do not bound errors for all inputs.", "anchors": ["torchimage/misc/polynomial.py:4-40", "torchimage/misc/outer.py:4-27"]}
{"id": "C148", "title": "Multi-scale SSIM cannot tell integer images apart", "statement": "If the weights of the blur along one of the content axes are all smaller than one in absolute value, as for the default Gaussian window, MS-SSIM of any two images of integers of the same shape is 1 in the product form (for a lower bound eps of at most 1), and the sum of the weights in the sum form, at any number of scales from two on, with or without a padder and with or without cropping. So MS_SSIM() of any two integer images whose content axes have more than 176 samples is 1, also of a white and a black one. Images of different shapes, and images with a content axis too short for the number of levels, are refused before the padder is touched.", "quantifier": "all integer types, pairs of images, windows with a small factor, constants, weights and padding settings accepted for integers", "why_tests_cant": "The score is a legitimate value, and tests use floats; they cannot show that all pairs of integer images score 1.", "anchors": ["torchimage/metrics/ssim.py:192-314"]}
{"id": "C149", "title": "Losses on the edges of integer images", "statement": "GaussianEdgeLoss, WeightedMul and WeightedSum of two integer images always end with RuntimeError (there is no mean of integers), after both images have been filtered and the padders have changed. WeightedDiv returns a number: the mean of the quotients of the absolute difference of the edges, as words, and the true edge, which is infinite or NaN if one of the true edges is zero. With two or more samples in the kernels of the constructor and sigma not zero the smoothing weights become zero, so all edges are zero and WeightedDiv is NaN for every pair of integer images.", "quantifier": "all integer types, kernel sizes, standard deviations, orders, histories of the padders and pairs of images of shape (n, c, h, w) with positive h and w", "why_tests_cant": "Tests use float images and a few kernels; the failure happens after all filtering, for every pair of integer images and kernel size.", "anchors": ["torchimage/contrib/edge_loss.py:8-40"]}
{"id": "C150", "title": "Losses on the edges of images with NaN or infinite pixels", "statement": "GaussianEdgeLoss, WeightedMul and WeightedSum of two images of shape (n, c, h, w) return a finite number exactly if there are pixels and every pixel of both images is finite; WeightedDiv moreover needs that no true edge is zero. No weight, zero weight or short-cut for the kernels (-1, 0, 1) and (1, -2, 1) hides a pixel that is not finite, also in planes with a single row or column. If it is finite, the loss is that of C85. The padders may have any history.", "quantifier": "all kernels, orders, histories of the padders and pairs of images of shape (n, c, h, w) with positive h and w", "why_tests_cant": "Tests use finite images; that one bad pixel anywhere always reaches the loss is a statement about all positions, sizes and kernels.", "anchors": ["torchimage/contrib/edge_loss.py:8-40", "torchimage/filtering/edges.py:57-100"]}
{"id": "C151", "title": "Multi-scale SSIM of images with NaN or infinite pixels", "statement": "Without padding, an entry of the MS-SSIM of two images with pixels that are not finite is that of any images of numbers agreeing with them where they are finite (the value of C80), provided the planes over which it is a mean have finite pixels only and the blur averages; it is NaN if any pixel of these planes, also one in a last odd row that the halving drops, is not finite in either image, or if there are none. The exception is the product form with first weight zero: since NaN to the power of zero is one, weights that are all zero give one for all images. Images of different shapes, and images with a content axis too short for the number of levels, are refused before the padder is touched. A single weight raises TypeError and no weights raise IndexError, whatever the pixels.", "quantifier": "all pairs of images, any number of levels, kernels, weights, axes and reduced axes; no padder", "why_tests_cant": "Which pixels reach which score through blurs, halvings and means is a statement about all positions and sizes, and values that are not finite do not obey the laws tests on numbers rely on.", "anchors": ["torchimage/metrics/ssim.py:240-314"]}
{"id": "C152", "title": "The losses are differentiable", "statement": "If the pixels of two images are n times continuously differentiable functions of a parameter (a vector in any normed space, such as the pixels themselves), then so are the entries of their mean squared error (with the derivative 2(x-y)d averaged), of their PSNR where no error vanishes or for eps > 0, of their SSIM map and score for averaging kernels, K1 and K2 not zero and no padding or paddings with samples, means of samples or constants from 0 to 1, at all images; of the cropped SSIM score for all paddings; of SSIM with any kernels and affine paddings, at images for which no denominator vanishes; of their MS-SSIM in the sum form; and in the product form for eps > 0 where no level scores eps. The product form is continuous everywhere. All derivatives of SSIM vanish where the images are equal.", "quantifier": "all families of images over all normed spaces, all orders of differentiability, kernels, axes, reductions, levels and weights", "why_tests_cant": "Differentiability is a limit; finite differences at sample images cannot show that no image has a kink.", "anchors": ["torchimage/metrics/mse.py:1-8", "torchimage/metrics/psnr.py:1-18", "torchimage/metrics/ssim.py:99-314"]}
{"id": "C153", "title": "Where edge filters and losses on edges are differentiable", "statement": "Components of edge filters, and magnitudes with p = 1, depend smoothly on parameters that the pixels depend on smoothly; magnitudes with larger p do where the sum under the root is positive, so everywhere for even p and epsilon > 0. With epsilon = 0, the default, and even p the magnitude of t*d is |t| times that of d: at a pixel without edges it has a derivative in the direction d only if the magnitude of d vanishes there too. The plain loss on edges is smooth at images no edges of which are equal, and for t + s*d against t has a derivative at s = 0 exactly if d has no edges.", "quantifier": "all families of images over all normed spaces, all orders of differentiability, edge and smoothing kernels, and paddings that are affine (for the smoothness) or linear (for the kinks) functions of the samples", "why_tests_cant": "Differentiability, and its failure, are statements about limits.", "anchors": ["torchimage/filtering/edges.py:57-136", "torchimage/contrib/edge_loss.py:6-19"]}
{"id": "C154", "title": "Where sharpening is differentiable, and where it jumps", "statement": "If the pixels of images are n times continuously differentiable functions of a parameter, then so are those of the images sharpened by UnsharpMask, without a threshold at all images, and with a threshold at images no sample of which differs from the blurred image by exactly the threshold. The derivative in the direction d is d + amount*(d - blur(d)) where the difference exceeds the threshold and d where it is smaller. For the multiples t*d of an image d, a sample of the sharpened image is continuous at t = 1 if and only if there is no positive threshold, or the amount is zero, or that sample of d does not differ from the blurred image by exactly the threshold.", "quantifier": "all families of images over all normed spaces, all orders of differentiability, kernels, axes, amounts and thresholds, and paddings that are affine (for the smoothness) or linear (for the derivatives and jumps) functions of the samples", "why_tests_cant": "Continuity, differentiability and their failure are statements about limits.", "anchors": ["torchimage/filtering/sharpen.py:34-49", "torchimage/pooling/base.py:121-228"]}
{"id": "C155", "title": "The history of a padder has no influence on the modules that hold it", "statement": "Every pooling call writes widths into the padder of the module, which other modules may hold as well, and SSIM reads them when it crops. Still, whatever happened to a padder before (any sequence of calls of pooling, averaging, sharpening and edge modules, of SSIM, MS-SSIM and losses on edges that share it, on any tensors, returning or raising, and of direct calls of to_same), every such call has the outcome - value, exception, and for magnitude what it leaves in its argument - that it has with the padder as constructed. The same holds for edge filters with two padders, shared or not, whatever happened to either. No history changes the settings given at construction. After a call that returns, the padder of a pooling, averaging, sharpening, SSIM or MS-SSIM module is in the state in which that call leaves a new one.", "quantifier": "all modules with any attributes, all tensors and axes including those refused, all padders, all finite histories of calls", "why_tests_cant": "Histories are sequences of arbitrary length over all modules and arguments; tests use new objects.", "anchors": ["torchimage/pooling/base.py:74-97", "torchimage/padding/generic_pad.py:96-126", "torchimage/metrics/ssim.py:126-314", "torchimage/filtering/edges.py:57-136", "torchimage/filtering/sharpen.py:43-49", "torchimage/contrib/edge_loss.py:12-40"]}
{"id": "C156", "title": "Padders that serve images of several types", "statement": "Whatever a padder served before - calls of pooling, sharpening and edge modules, SSIM, MS-SSIM and losses on edges that share it, on images of numbers, of machine integers of any types, or with NaN or infinite entries, returning or raising, in any order - a call on images of any of these kinds has the outcome it has with the padder as constructed. In particular NaN, infinities and wrapped integers leave no trace in a module. The settings given at construction are never changed.", "quantifier": "all modules, all tensors of numbers, of machine integers of any width and signedness, and of floating-point values including NaN and infinities, all padders, all finite mixed histories", "why_tests_cant": "Histories of arbitrary length over all modules, element types and arguments.", "anchors": ["torchimage/pooling/base.py:74-97", "torchimage/padding/generic_pad.py:96-126", "torchimage/metrics/ssim.py:126-314", "torchimage/filtering/edges.py:57-136", "torchimage/filtering/sharpen.py:43-49", "torchimage/contrib/edge_loss.py:12-40"]}
{"id": "C157", "title": "Filtering blends of images", "statement": "For weights a and b that sum to one, pooling, sharpening without a threshold and the components of edge filters map a*x + b*y to a times the result for x plus b times the result for y, for every padding whose border values are affine functions of the samples, such as constants and ramps with any values. Weights with another sum do not do with constants other than zero, and with paddings by the maximum it fails in general even for equal weights.", "quantifier": "all images, weights with sum one, kernels, strides, axes, amounts, and settings of padders whose modes are affine", "why_tests_cant": "All images, all weights and all settings at once.", "anchors": ["torchimage/pooling/base.py:121-228", "torchimage/padding/generic_pad.py:128-287", "torchimage/filtering/sharpen.py:34-49", "torchimage/filtering/edges.py:57-136"]}
{"id": "C158", "title": "Convexity of magnitudes and of losses on edges", "statement": "For weights a, b >= 0 with a + b = 1: the plain loss on edges of a*p + b*q against a*t + b*u is at most a times that of p against t plus b times that of q against u; WeightedMul and WeightedDiv are convex functions of the prediction if no true edge is negative and concave if none is positive; every entry of magnitude with an even p and epsilon >= 0 is a convex function of the image, and with epsilon = 0 and linear padding the magnitude of a sum is at most the sum of the magnitudes. WeightedSum is not convex: for an image d with edges, d and -d have no loss against d, but their mixture has.", "quantifier": "all images, weights, edge and smoothing kernels, even p, epsilon >= 0, and for magnitudes all axes and paddings that are affine functions of the samples", "why_tests_cant": "An inequality for all pairs of images and all weights, for each entry.", "anchors": ["torchimage/contrib/edge_loss.py:6-40", "torchimage/filtering/edges.py:105-136"]}
{"id": "C159", "title": "Filters as functions of their weights and of sigma", "statement": "If the weights of a separable pooling module and the pixels of an image are n times continuously differentiable functions of a parameter, while the kernel sizes, the strides and the shape do not depend on it, then the pooled image is such a function too, without a padder and with a padder whose modes are affine. For GaussianPoolNd of any sizes, orders and strides the pooled image is a smooth function of the pixels and of the sigmas, as long as no sigma is zero.", "quantifier": "all numbers of derivatives, parameters, images, axes, kernel sizes, strides, orders, non-zero sigmas, junk, affine paddings", "why_tests_cant": "A claim about derivatives of every order in every direction, for all sizes.", "anchors": ["torchimage/pooling/base.py:191-228", "torchimage/pooling/gaussian.py:43-112"]}
{"id": "C160", "title": "Filtering with blends and multiples of kernels", "statement": "If three pooling modules differ in the kernel of one axis only, and the third kernel is a times the first plus b times the second (of the same size), then the third module returns a times the result of the first plus b times the result of the second, without a padder and with a padder of any mode. If all kernels are multiplied by numbers, the result is multiplied by their product.", "quantifier": "all images, axes, kernels, strides, coefficients, junk; any padding mode that writes values", "why_tests_cant": "An identity for all pairs of kernels, all coefficients and every position of the axis among the others.", "anchors": ["torchimage/pooling/base.py:191-228"]}
{"id": "C161", "title": "SSIM and MS-SSIM as functions of their window and of their constants", "statement": "If the weights of the window (of fixed sizes, averaging), the constants K1 and K2 (not zero) and both images are n times continuously differentiable functions of a parameter, then so are the score and the map of SSIM; at a parameter where both images are equal, the derivative of the score is zero. In particular this holds for Gaussian windows as a function of sigma. MS-SSIM is such a function of the same data and of the weights of its levels, in the product form where no score of a level is equal to eps > 0.", "quantifier": "all parameter spaces, images, windows, axes, reductions, constants, junk; no padder or a padder that keeps moments, without cropping; all sizes and nonzero sigmas of Gaussian windows; for MS-SSIM any number of levels from two on", "why_tests_cant": "Differentiability of every order in all arguments at once; finite differences only suggest it at samples.", "anchors": ["torchimage/metrics/ssim.py:9-186", "torchimage/metrics/ssim.py:189-315", "torchimage/pooling/gaussian.py:9-129"]}
{"id": "C162", "title": "Wide and narrow Gaussian filters", "statement": "As the sigmas of a GaussianPoolNd of order zero grow, its result tends, at every position, to the result of the AvgPoolNd of the same sizes and strides, without a padder and with a padder of an affine mode. As the sigmas tend to zero, the same-padded result at stride 1 tends to the image itself, for kernels of odd and of even size. Unsharp masking with such filters tends to the image, whatever the amount and the threshold (and leaves each pixel as it is from some point on, if the threshold is above zero). As the sigmas grow, unsharp masking tends to unsharp masking with the AvgPoolNd of the same sizes, at every pixel whose distance from the average is not the threshold, and everywhere if the threshold is not above zero. SSIM and MS-SSIM with a Gaussian window tend to SSIM and MS-SSIM with the flat window of the same sizes as the sigmas grow. As the sigmas tend to zero, the same-padded map of SSIM tends to the pixelwise comparison (2xy + K1^2) / (x^2 + y^2 + K1^2), and the score to its mean.", "quantifier": "all images, axes, sizes, strides, sigmas, affine padding modes, junk; limits along any filter", "why_tests_cant": "A limit statement: no finite number of sigmas shows it, and the claim on even sizes concerns every size and every padding.", "anchors": ["torchimage/pooling/gaussian.py:9-129", "torchimage/pooling/uniform.py:11-23", "torchimage/pooling/base.py:191-228", "torchimage/filtering/sharpen.py:33-50", "torchimage/metrics/ssim.py:9-186", "torchimage/metrics/ssim.py:189-315"]}
{"id": "C163", "title": "Edge filters as functions of their weights", "statement": "If the image, the edge kernel in use and the smoothing kernels (of fixed sizes) are n times continuously differentiable functions of a parameter, then so is every component of a SeparableEdgeNd filter with a padder of an affine mode, and so is the magnitude for p = 1, for even p with epsilon > 0, and wherever the sum under the root is positive. The components are not continuous in the weights that are given: for the kernel (-s, 0, s) they are those of (-1, 0, 1) while 1 <= s < 2, and s times these from s = 2 on, because kernels are compared with (-1, 0, 1) after truncation to integers.", "quantifier": "all parameters, numbers of derivatives, images, kernels, axes, uniform affine padders, junk; all real s", "why_tests_cant": "Derivatives of every order in all arguments at once; the jump concerns an interval of kernels.", "anchors": ["torchimage/filtering/edges.py:57-136"]}
{"id": "C164", "title": "Gaussian gradient filters as functions of their sigmas", "statement": "The components of GaussianGrad are n times continuously differentiable functions of the image and of the (non-zero) sigmas at once, for all kernel sizes, all orders, with and without normalize, with edge size and sigma given or taken over, unless the edge kernel has three weights, is not of order one, and is replaced. The same holds for the magnitude (p = 1, even p with epsilon > 0, or a positive sum under the root), and hence for LaplacianOfGaussian with a kernel size other than three. The first derivative of a Gaussian is never replaced, since its weights are below one; the second derivative sampled at three points is replaced by (1, -2, 1) at sigma^2 = 2/7, although its middle weight is not -2.", "quantifier": "all parameters, numbers of derivatives, images, sizes, orders, sigmas other than zero, axes, uniform affine padders, junk", "why_tests_cant": "Derivatives of every order in sigma; that no sigma leads to a replacement is a bound for all real sigmas.", "anchors": ["torchimage/filtering/edges.py:57-136", "torchimage/filtering/edges.py:166-183", "torchimage/filtering/edges.py:221-233"]}
{"id": "C165", "title": "Wide and narrow Gaussian gradient filters", "statement": "As all sigmas of a GaussianGrad of order one or more grow without bound, every component tends to zero at every position, for all kernel sizes, with and without normalize, with edge size and sigma given or taken over, and with a padder of a linear mode; the magnitude tends to the p-th root of epsilon. For order one the same holds as all sigmas tend to zero: the components then vanish and do not approach differences of pixels. For order two it does not: the middle one of three weights, as used, falls below every bound.", "quantifier": "all filters on all index types, images, sizes (edge size above zero), orders above zero, sigmas other than zero, axes, uniform linear padders, p, epsilon, junk", "why_tests_cant": "A limit over all families of sigmas for all images and orders.", "anchors": ["torchimage/filtering/edges.py:57-136", "torchimage/filtering/edges.py:166-183"]}
{"id": "C166", "title": "Unsharp masking as a function of its blur, amount and threshold", "statement": "If the image, the weights of the blur (of fixed sizes) and the amount are n times continuously differentiable functions of a parameter and the threshold is a continuous one, then the sharpened image is an n times continuously differentiable function, if the threshold is never above zero, or at parameters where no pixel differs from the blurred one by exactly the threshold. In particular it is smooth in the sigmas of a Gaussian blur.", "quantifier": "all parameters, numbers of derivatives, images, kernels, sigmas other than zero, orders, axes, affine padders, amounts, thresholds, junk", "why_tests_cant": "Derivatives of every order in all arguments at once.", "anchors": ["torchimage/filtering/sharpen.py:33-49", "torchimage/pooling/gaussian.py:9-129"]}
{"id": "C167", "title": "Losses on Gaussian edges as functions of sigma", "statement": "GaussianEdgeLoss and WeightedMul are n times continuously differentiable functions of sigma and of the two images, at parameters where no edges of the two images are equal (for kernel sizes other than three, or first derivatives). For any two images of the same shape these and WeightedSum tend to zero as sigma grows, with derivatives of any order at least one, and as sigma tends to zero, with first derivatives.", "quantifier": "all parameters, filters on them, numbers of derivatives, pairs of images with non-empty planes, kernel sizes (other than zero for the limits), sigmas other than zero, orders, junk", "why_tests_cant": "Limits and derivatives of every order over a continuum of sigmas and images.", "anchors": ["torchimage/contrib/edge_loss.py:6-26", "torchimage/contrib/edge_loss.py:WeightedSum", "torchimage/filtering/edges.py:166-185"]}
