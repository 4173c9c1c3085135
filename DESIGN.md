# Formal model of torchimage in Lean 4

The source under study is `/repo` (Python on top of PyTorch), read as text only. The model lives in
`lean/Verif`. `properties.jsonl` lists the claims, `MANIFEST.json` maps each claim to theorems,
`seeded/LOG.jsonl` records the attempts to break the theorems with wrong models.
Its `theorems_failed` was derived by a script from the positions of the errors.  In entries up to and including those for C164 an error that
Lean reports at a docstring (mostly timeouts) was counted for the declaration above it, so that a name there may be that of the neighbour.
`caught` means that the build failed: this includes proofs that fail by a timeout, which shows that the proof does not go through and not
by itself that the statement became false; the field `claim_broken` says why it did.

## Layout

| directory | content |
|---|---|
| `Verif/Model/*` | the code as it is, function by function; every definition cites file and lines |
| `Verif/Spec/*` | small independent definitions the properties are stated with (1-d extensions, counts, correlations, ...) |
| `Verif/Proofs/*` | lemmas connecting model and specification |
| `Verif/Props/*` | the property theorems named in `MANIFEST.json`, each with a concrete example next to it; theorems whose hypotheses describe whole calls are applied to calls on images of fixed shapes in `Props/Cases.lean`, `Props/CasesEdges.lean` and `Props/CasesMetrics.lean` |

## Modelling decisions

* **Scalars.** Tensor elements are elements of an arbitrary field (`[Field α]`), an arbitrary linearly
  ordered field where order matters, and `ℝ` where exponentials, logarithms or roots are used.
  Floating-point rounding is modelled for pooling, the squared error, sharpening, components of edge filters, demosaicing and polynomials only (C130, C141, C144, C147: relative errors, any order of summation; comparing with the threshold and copying in pads are exact), integer types for pooling, padding, edges, sharpening, squared errors, SSIM, MS-SSIM, losses on edges, Bayer mosaics and polynomials (C131-C137, C142, C145, C148, C149); other dtypes, devices, autograd and
  memory layout are not modelled.
* **Tensors** are a shape (`List Nat`) and row-major data of the right length. Equality of tensors is
  literal equality, so "same tensor" includes the shape and all elements.
* **`torch.empty`** takes an arbitrary `junk` function as parameter. A theorem quantified over `junk`
  says no uninitialised memory leaks.
* **Python slices** follow `slice.indices` (defaults, negative bounds, clamping), slice assignment
  checks broadcastability and raises otherwise.
* **Exceptions** are values (`Except Err`). Error constructors carry the Python exception class.
* **Loops** that may not terminate get fuel. Running out of fuel is the error value `Err.diverge`;
  termination is then a theorem (enough fuel exists), and divergence is "out of fuel for all fuels".
* **Mutable objects** (a `Padder` changed by `to_same`) are threaded as state, also on error exits.
* **Randomness** is a parameter: theorems quantify over all draws in the documented range.

## Trusted base

* the Lean 4 kernel;
* the axioms `propext`, `Classical.choice`, `Quot.sound`. `AXIOMS.md` lists the axioms of every theorem named in
  `MANIFEST.json`, as printed by `#print axioms`;
* the manual transcription of the Python code in `Verif/Model/*`, and the reading of the Python, PyTorch and NumPy
  primitives encoded there (slicing, broadcasting, `unfold`, `flip`, reductions, `linspace`, `conv2d` on cropped windows).

### Modelled code

| source (`torchimage/`) | model |
|---|---|
| `padding/pad_1d.py`, `padding/generic_pad.py` (`Padder`, `_fill_value_1d`, stat modes, ramps, `to_same`) | `Model/Pad1d.lean`, `Model/Padder.lean` |
| `padding/utils.py`, `shapes/conv_like.py` | `Model/ConvLike.lean` |
| `utils/ragged.py`, `utils/ndspec.py`, `utils/validation.py` | `Model/NdSpec.lean`, `Model/RaggedArray.lean` (arrays in specifications), `Model/Validation.lean` |
| `pooling/base.py`, `pooling/uniform.py`, `pooling/gaussian.py`, `pooling/operator.py` | `Model/Pool.lean`, `Model/Gaussian.lean` |
| `filtering/edges.py`, `filtering/sharpen.py` (`filtering/utils.py` in `Model/Validation.lean`) | `Model/Edges.lean` |
| `cfa/utils/*.py`, `cfa/bayer_conv/*.py` (conversions, mosaic convolution, Malvar–He–Cutler demosaicing) | `Model/Cfa.lean` |
| `metrics/base.py`, `mse.py`, `psnr.py`, `ssim.py` | `Model/Metrics.lean` |
| `misc/outer.py`, `misc/polynomial.py` | `Model/Misc.lean` |
| `misc/power.py` | `Model/Power.lean` |
| `random.py` | `Model/Random.lean` |
| `misc/stats.py`, `metrics/hdrvdp/pixels_per_degree.py`, `hdrvdp3.py` | `Model/Stats.lean` |
| object identity of results of `generic_pad.py`, `pooling/base.py` | `Model/Alias.lean` |
| `SeparablePoolNd.forward` and `MSE.forward` with arbitrary arithmetic | `Model/Rounded.lean` |
| `SeparablePoolNd.forward` on images of a signed integer type | `Model/Integers.lean` |
| `GenericPadNd.forward` on images of an integer type | `Model/IntPad.lean` |
| `SeparablePoolNd.forward`, edge filters, `UnsharpMask.forward`, `MSE`, `SSIM` on images of an integer type | `Model/IntImage.lean` |
| `Padder.forward`, `SeparablePoolNd.forward`, edge filters, `UnsharpMask.forward`, `MSE` on images with infinite or NaN entries | `Model/Flt.lean` |
| `SSIM.forward` on images with infinite or NaN entries (for blurs that do not exclude padded samples from their counts) | `Model/FltSsim.lean` |
| `cfa/utils/bayer_to_rgb.py` and demosaicing for integers, `BayerConv2d.forward` and demosaicing for images with infinite or NaN entries, demosaicing with arbitrary arithmetic | `Model/CfaWith.lean` |
| `misc/outer.py`, `misc/polynomial.py` on integers, on values that are not finite, and with arbitrary arithmetic | `Model/MiscWith.lean` |
| `MS_SSIM.forward` on images of an integer type | `Model/IntMs.lean` |
| `MS_SSIM.forward` on images with infinite or NaN entries | `Model/MsFlt.lean` |
| `contrib/edge_loss.py` | `Model/EdgeLoss.lean` |
| `contrib/edge_loss.py` on images of an integer type | `Model/EdgeLossWord.lean` |
| `contrib/edge_loss.py` on images with infinite or NaN entries | `Model/EdgeLossFlt.lean` |

### Not modelled

Floating-point rounding outside C130, C141, C144 and C147, overflow and underflow, NaN and infinities outside C138 to C140, C143, C146, C150 and C151 (a quotient by zero is 0 or an error value, said at the definition;
in `Model/Flt.lean`, `Model/FltSsim.lean` and `Model/CfaWith.lean` finite numbers are exact, there is one zero, and every product with a weight is computed, also with a weight of zero), dtypes,
devices, autograd (C152 to C154 speak of the derivatives of the modelled functions, not of how PyTorch computes them), memory layout, aliasing of tensors (except whether a padding, pooling or edge result is the argument itself, C128), `nn.Module` machinery, warnings and messages,
plotting and test helpers. Simplifications that concern a single definition are stated in its comment.

## Behaviour of the code found on the way

Each item is a theorem, or a remark at the model definition.

* **Axes.** `check_axes` never validates an `int` argument and accepts `a == ndim` in sequences; `random_crop` takes an int below `-ndim` as counted twice from the end (C74). `mean(dim=())` reduces all axes.
* **Ragged data.** `get_ragged_ndarray(strict=True)` collapses data of mixed depth; non-strict mode discards lifted items (C71).
* **Integer images.** `SeparablePoolNd.forward` converts the weights to the type of the image, so averages and Gaussian blurs of integer images are zero (C131).
  `linear_ramp` pads integer images with the constant end value, the odd modes and `smooth` wrap around the range of the type, `mean` raises RuntimeError (C132).
  Normalised edge filters and Farid see nothing in integer images, gradients and their squares wrap around, a float `epsilon` raises RuntimeError (C134).
  Unsharp masking only multiplies integer images by `1 + amount` (C135), `MSE` takes images that differ by 16 grey levels for equal and raises RuntimeError by default (C136), and `SSIM()` of any two
  integer images is 1, and so is MS-SSIM (C137, C148). No loss on the edges of integer images is a number: three of them raise RuntimeError, `WeightedDiv` is NaN (C149).
* **Padder.** The result of `_check_padding_mode` is ignored. Mode `zeros` returns uninitialised memory and raises `TypeError` if
  another mode follows (C20). Mode `empty` does not widen the window for the following axes. No looping mode terminates on
  an empty axis in `forward`; in `pad_axis` symmetric and reflect raise `ZeroDivisionError` instead, because there the bounds are Python
  and not numpy integers (C19). Zero width with `periodize` does not extend.
  `to_same` changes the padder before it may raise (C35). `pad_axis` differs from `forward` exactly for `periodize` on an axis of odd
  size with a nonzero width: it drops the last sample or raises RuntimeError (C22).
* **Edges in place.** `magnitude` adds components with `+=`. With `p = 1` and two empty kernels the first component is the image itself,
  so the caller's image is overwritten: doubled once per further axis instead of summed (C128).
* **Pooling.** `AvgPoolNd(count_include_pad=False)` lays its counts out in increasing order of the axes, whatever their order in the call: the result has the right shape and values exactly if the output sizes agree in both orders (C36_iff). `SeparablePoolNd`
  with an empty kernel, the default stride and a same padder raises `ZeroDivisionError`. Same padding with `periodize` on an odd axis
  adds one sample to the result exactly for stride 1 and at least two weights (C31).
* **Edges.** Kernels are truncated by `int()` when they look like a first derivative (C41, also for `LaplacianOfGaussian(3, 0.55)`).
  `GaussianGrad` with an even edge size is not antisymmetric (C42). Axes of fewer than three samples, after padding, break C40 (exactly: `C40_iff`). `LaplacianOfGaussian(3, 1)` responds to
  constant images (C76). `Laplace` needs two axes. `GaussianGrad` with a list of sizes and no edge size raises `AssertionError`.
* **Colour filter arrays.** On a side of 3 samples the convolution result has length one and is broadcast silently (C52); on other
  odd sides `forward` raises, and `forward_unshuffle` returns if the kernel size is odd (C53). The demosaicing range claim needs `clamp >= 0` (C54).
* **SSIM.** The padder fills `x`, `y`, `x*x`, `y*y`, `x*y` with the same constant, so with constant padding outside [0, 1] (also ramps and
  odd modes) the "variances" can be negative, the index of an image with itself can be 0/0 and an index can exceed 1 (C58, C59). With
  `periodize` on an odd axis cropping leaves one padded entry (C60). A window of one sample with `use_sample_covariance` divides by zero.
* **Callables.** `periodize_1d` passed as a callable is not the mode `periodize`: on an odd axis the result lacks one entry (C100).
* **Mirror images.** `periodize` on an odd axis, same padding with an even kernel, and halving an odd number of samples are not symmetric under reversing the axis (C91, C93).
* **MS-SSIM.** A single weight raises `TypeError`; the default weights sum to 1.0001 (C61, C62).
* **Misc.** `poly1d` raises `TypeError` for one coefficient (C64). `random_crop` never draws the last window and raises for
  `size == n` (C68). `safe_power` on an integer tensor truncates a float exponent, so `safe_power(tensor([4]), 0.5)` is 1, and raises
  for zeros with a fractional exponent; with an integer exponent tensor it truncates a float base; a negative power of integers is 0 unless the base is 1 or -1, so
  `safe_power(2, -1)` is 0 (C81). With a fractional exponent zero counts as `epsilon`: the root of 0 is larger than that of 2.5e-7, so the order is not kept (C122). `any_conv_1d` raises `RuntimeError` for every tensor with an empty axis (C39).
* **Edge losses.** `WeightedMul` and `WeightedDiv` weight with signed edges: `WeightedMul(3, 1, 2)` is negative and `WeightedDiv(3, 1, 2)`
  is -1 for a black prediction of a constant positive image. `WeightedDiv` is NaN or infinite as soon as a true edge is zero, so for every
  constant true image with an odd kernel size and an odd order (C86).  In fact it is not a number for any images then, because the true
  edges at the reflected border are zero (`C86_odd_order`, C115).
* **Derivatives.** `magnitude` with its default `epsilon=0` has no derivative at pixels all of whose components vanish, such as in constant regions; any positive `epsilon` mends this (C153). Sharpening with a threshold jumps at samples that differ from the blurred image by exactly the threshold (C154).
  MS-SSIM in the product form has a possible kink where the score of a level equals `eps`; SSIM and the sum form have none (C152).
- A kernel weight of zero does not hide a NaN or an infinity: the pooled pixel is not finite as soon as any pixel of its window is not (C138). The difference
  taken for the kernel (-1, 0, 1) does pass over the middle pixel, so the two branches of `_conv_edge` differ on such images (C139). `UnsharpMask` with amount
  zero still spreads NaN, and `MSE` of an image with an infinite pixel and itself is NaN. With `use_sample_covariance` and a window of a
  single sample every SSIM index and score is NaN, also for finite images (C140). One pixel that is not finite anywhere makes every loss on edges infinite or NaN (C150). One such pixel
  makes the MS-SSIM of its planes NaN, unless the first weight of a product is zero: `nan ** 0` is one (C151).
- `downsample_4c_bayer_to_rgb` adds the two green planes before it halves them; for integers this sum wraps. A uint8 mosaic with greens of 200 gets a green of 72, and a white one 127;
  `torch.stack` converts the red and blue planes to the floating-point type of the green one, so nothing else shows it (C142). Demosaicing rejects every integer mosaic, because the weights
  of the convolutions are floating-point numbers.
- An infinite sample of a mosaic becomes NaN in some of the estimates around it (weight zero) and the upper bound or 0 in others (clamped), so part of the damage looks like white or
  black samples (C143).

## Plan per property

| property | what is modelled | how it is proved |
|---|---|---|
| C01–C15 | `Padder.forward`, `_fill_value_1d`, all of `pad_1d.py` on n-d tensors with slices and the chunk loops | loop invariant "buffer agrees with the 1-d extension on the filled window", lifted to n-d by a window invariant over the axes loop |
| C16–C18, C21, C22 | same model | from the sequential-fold theorem |
| C19 | fuelled loops | measure: remaining head/tail decreases by at least one per pass; divergence by induction on fuel |
| C20 | `zeros` branch as written | refuted: witness where the result depends on junk and where the second axis raises |
| C23, C69–C73 | `Py` trees, `ragged.py`, `ndspec.py` | structural induction |
| C24–C28 | integer functions | arithmetic (`omega`, `Int.ediv` lemmas), induction on loops |
| C29, C66 | tensor outer product | index arithmetic |
| C30–C36, C39 | `unfold`, `@`, pooling loops, same padder state | fold induction, Fubini for finite sums, history induction |
| C37, C38 | kernel construction over `ℝ`, polynomial matrix `D + P` | finite sums; derivative by induction on the order |
| C40–C45 | `EdgeFilter`, `Laplace`, `UnsharpMask` | composition of the pooling and padding theorems |
| C46–C54 | strided Bayer indexing, `BayerConv2d`, `last_step_demosaic` | index case analysis mod 2 |
| C55–C62, C88 | metrics over ordered fields / `ℝ` | Cauchy–Schwarz, AM–GM, monotonicity; equality in Cauchy–Schwarz and positivity of the weights (C88); averages over original samples: means over the positions seen by a window, equal to the window mean inside the border |
| C63–C65, C67, C68, C81–C84 | misc, random, stats, display geometry | direct; monotone interpolation, `tan (arctan t) = t` |
| C85, C86 | edge losses | the edge theorems C75, C76; means over concatenated channels are averages of two means |
| C87 | `_same_padding_pair` | `omega` |
| C89 | `empty` and `zeros` branches of `_fill_value_1d` | the same loop invariant with a window that stays narrow on unwritten axes |
| C90 | two calls of `SeparablePoolNd.forward` | double sums over the two windows regrouped by the offset `i * stride + j`; axes interleaved by commuting slides |
| C91–C93 | pairs of runs on an image and the image with an axis reversed | every extension rule, fold and window sum is transported by `z ↦ n - 1 - z`; reductions see a permutation of the positions |
| C94 | a run on a batch and a run on selected images of it (`selected`) | every fold and window sum is local in the other axes; reductions are regrouped by the position of the kept axis |
| C95 | runs on an image and on the image with two axes exchanged (`transposed`), axes renamed | every fold and window sum is transported by exchanging two entries of the position |
| C96 | runs on an image and on the image with changed grey values (`AxisPad.Follows`, `totalWeight`) | every rule of a padded sample and every window sum follows the change; the SSIM index is a quotient of forms of equal degree |
| C97 | two runs, with a padder and without (`Interior`, `Moved`, `Around`) | padding then cropping is the identity, and windows of interior positions lie inside the crop; window sums depend on the window only |
| C98 | straight-line images (`Affine`, `moment`, `drift`) | window sums and the two continuing modes map straight lines to straight lines; symmetric kernels have their centre of mass in the middle |
| C99 | straight-line images (`Affine`, `moment`, `totalWeight`, `EdgeInterior`) | a kernel of sum zero turns a straight line into its slope times the moment; smoothing multiplies constants by the sums |
| C100 | rules of callables (`Computes`, `padBy`) | the loop over the axes is an induction with an arbitrary rule per step; replacing names by functions is an equality of loops |
| C101 | two runs on ordered or close images (`Below`, `Close`, `AxisPad.Rises`) | order statistics and averages are monotone; closeness is order after adding `δ` to one image |
| C102 | specifications with arrays (`asLists`, `SameOutcome`) | mutual induction over the nesting; broadcasting an array and expanding its nested lists agree axis by axis |
| C103 | `sameEach`: widen and pool one axis before the next is touched | a rule that is linear up to constants passes through weighted sums over another axis (`Passes`); induction over the axes; witnesses for the maximum and for constants |
| C104 | `rolled`, sums over `data` | circular padding is a renaming of positions, which commutes with everything on other axes; on its own axis the filter is a sum over a ring, and a shift permutes the positions |
| C105 | `AxisPad.Steps`, `AxisPad.Settled`, `Agreeing` | one signal: the rule sees the same border values on the extended signal (for statistics: adding copies of the statistic does not change it); several axes: the rules of different axes can be exchanged, because they are linear from a common value, or are maxima, or minima |
| C106 | `AxisPad.Wider`, `PartOf` | induction over the axes: a fibre that has not been padded yet is the same in both tensors |
| C107 | `Pattern.swap/.mirror/.upturn/.transpose/.from` | from the formula of C54: the estimates have these symmetries, reflection about the edge samples commutes with mirroring |
| C108 | C54's formula | sum of the absolute coefficients; clamping shortens distances |
| C109 | C80's formula | the first level leaves a difference constant along the axes, which survives halving; the last level compares the rest; for the kernel `[1]` false (`C109_single_entry_false`) |
| C110 | C79's and C80's formulas | means of shifted images are shifted means, covariances stay; constants are shifted zero images |
| C111 | `EdgeFilter.component`, `magnitude`, `Laplace`, `GaussianGrad` under reversal, circular shift and affine grey-value changes | `same_flip` with the kernel read backwards, `filtered_parity` (linearity in the kernel), `same_rolled`, `same_map`; `usedKernel` keeps the parity (`parity_used`) |
| C112 | `UnsharpMask.forward` | the formula of C45 (`unsharp_form`) and the same lemmas for `filtered` |
| C113 | `Padder.forward`, `SeparablePoolNd.forward`, edge filters | the rules of two settings of one family agree outside the image (`coincide_rule`), so `extendAxis` and `padSeq` agree (`padSeq_coincide`); `C113_conditions*` show that the bounds on widths and lengths are needed |
| C114 | edge filters, `EdgeLoss`, `WeightedMul`, `WeightedSum`, `WeightedDiv` | filters are linear (`filtered_lincomb`) and enlarge differences at most by the sums of absolute weights (`same_close`); losses are means over both directions, and a mean is the mean of the means of its parts (`mean_of_means`) |
| C115 | edge filters, `WeightedDiv` | samples extended about a border sample cancel against a kernel of the opposite parity (`sum_cancels`); smoothing along the other axes keeps zero slices (`filtered_zero_slice`) |
| C116 | `mse`, `psnr`, `SSIM.forward`, `MsSsim.forward`, edge losses | a mean is the mean of the means of its parts (`mean_of_means`, `mean_batch`); edges of a selected image are selected edges (C94); concavity of the logarithm (`log_mean`) for PSNR |
| C117 | `mse`, `psnr` | every reduction is a weighted sum of squares over a set of positions (`mse_form`); Cauchy-Schwarz and Minkowski for lists (`sum_mul_sq_le`, `sqrt_sum_le`) |
| C118 | `SepPool.forward`, `mse`, `psnr` | axis by axis (C103); on a line every sample is met with the total weight (`Balanced`: rotations of a ring, unfolding of two mirrors), so the sums over lines agree (`sum_lines`); weighted Cauchy-Schwarz (`weighted_sq_le`) |
| C119 | `SepPool.forward`, `SepPool.toFilter`, `SSIM.downsample`, `mse` | a window at distance `s` is a window of the filter at `t * s` (`slide_every`), axis by axis (`poolSeq_every`); same padding at distance `s` is part of that at distance one (C106); sums over blocks (`sum_blocks`, `sum_axis`) |
| C120 | `gaussianKernel` | samples of the bell curve over their sum (C37); quotients of exponentials; derivative of `bellPoly` by induction; limits of finite sums |
| C121 | `describe` | sorting commutes with monotone maps and is monotone itself (`orderedInsert_le`); interpolation in a reversed list |
| C122 | `safePower` | C65 for a scalar exponent, then real powers; partial: zero counts as `epsilon` |
| C123 | `outer`, `poly1d` | indices of a product shape (`indices_append`); Horner's rule by induction |
| C124 | `SepPool.forward`, `UnsharpMask.forward` | the padding rules extend sequences with the matching symmetry (`continued_rule`); one axis after the other (C103); addition formulas |
| C125 | `NdSpec.apply2`, `zip2`, `map`, `ofItem`, `getMany` | the loop over index tuples builds nested lists (`grid_nest`); the ragged shape begins with the outer lengths (`ragged_levels`) |
| C126 | `SepPool.init`, `Padder.forward`, `padAxis`, `SepPool.forward`, `anyConv1d`, `avgForwardExclude`, `checkPadding`, `EdgeFilter` | the loops are followed up to the first error (`fillLoop_unknown`, `anyConv1d_bad`) |
| C127 | `Padder.forward`, `SepPool.forward` | `forward_call_rep`: loop invariant with the remaining widths of every axis (`befSum`, `aftSum`); every 1-d function fills to the border of the buffer, and the widened region is re-read by the next occurrence |
| C128 | `Padder.returnsArg`, `SepPool.forwardReturnsArg`, `EdgeFilter.magnitudeInPlace` | every 1-d padding function keeps the shape of the buffer (`runMode_keeps`, no hypotheses), so the shape tells whether a new tensor was made; induction over the axes with the content of the caller's tensor in the state |
| C129 | `SepPool.forward`, `EdgeFilter.allComponents`, `EdgeFilter.laplaceForward` | every axis reads the image through its continuation (`folded`); the continuation of a filtered line is the filtered continuation (`Compatible`), sums over a ring or a doubled line are shifted (`adjoint_ring`, `adjoint_mirror`); induction over the axes with exchange of taps |
| C130 | `SepPool.forwardWith`, `mseWith` (Model/Rounded.lean), `SepPool.forward`, `mse` | induction over the derivation that a value evaluates a sum (`Evaluates.error`), over the axes for the loop (`Near.step`, `Near.seq`); outcomes by going through the binds of both loops (`loopWith_kind`) |
| C131 | `SepPool.forwardInt` (Model/Integers.lean) | entries are integers in the range congruent to those of the exact filter with cut weights, kept by every pass (`Congruent.step`, `Congruent.seq`); induction over the axes |
| C132 | `Padder.forwardInt` (Model/IntPad.lean) | simulation: a relation between numbers and machine integers kept by every padding function (`rel_*`, `rel_forwardWith`), once with congruence modulo 2^bits, once with equality; ramps against constants by a one-sided simulation (`OkImp`) |
| C133 | `SepPool.forwardWord` (Model/IntImage.lean) | the simulation of C132 continued through `unfold` and `matvec` (`rel_unfold`, `rel_matvec`), induction over the axes (`PoolIs.loopWord`) |
| C134 | `EdgeFilter.componentWord`, `magnitudeWord` (Model/IntImage.lean) | simulation of slices and differences (`rel_firstDiff`, `rel_secondDiff`); the cut kernel is the same in all three branches (`truncOp_of_trunc`); induction over the axes for the sum of powers |
| C135 | `UnsharpMask.forwardWord` (Model/IntImage.lean) | the blur by C133; `absWord_value`, `value_wrapped` relate differences and absolute values of machine integers to remainders |
| C136 | `mseWord`, `psnrWord` (Model/IntImage.lean) | `value_sq`; powers of two dividing a square by factorisation (`sq_dvd`); the reductions as in C55 |
| C137 | `SSIM.forwardWord` (Model/IntImage.lean) | `ssimWord_full` from a blur that succeeds and agrees modulo the size (`SteadyWord`), once with the cut weights and once with zeros |
| C138 | `Padder.forwardFlt`, `SepPool.forwardFlt` (Model/Flt.lean) | the simulation of C132/C133 for relations between numbers and floating-point numbers (`RingRel`, `DotRel`): agreement on finite entries, a number or NaN, the graph of a filling, and counts of entries that are not finite (`CountRel`), then C30; exact values as sums of the window (`poolSeqFlt_get`, the floating-point numbers being a commutative monoid under addition), from which the infinities are read off |
| C139 | `EdgeFilter.componentFlt`, `UnsharpMask.forwardFlt`, `mseFlt` (Model/Flt.lean) | the same relations through slices, differences and reductions (`rel_componentFlt`, `rel_unsharpFlt`, `rel_mseFlt`); a sum, product or difference is finite iff its terms are |
| C140 | `SSIM.forwardFlt` (Model/FltSsim.lean) | which entries a blurred pixel depends on is a function of the shape and the settings (`forwardFlt_uses`, the simulation of C138 against sets of indices), so the blurs of squares and products are finite where the means are; then the map by `SteadyFlt` as in C57, and a quotient of two numbers that are not finite is NaN |
| C141 | `UnsharpMask.forwardRounded`, `EdgeFilter.componentWith` (Model/RoundedMore.lean) | the error relation `Near` of C130 through copying pads (`Near.padSeq`), differences and products; a case split on both sides of the threshold |
| C142 | `downsample4cWord`, `downsample1cWord`, `demosaicWord` (Model/CfaWith.lean) | evaluation of the planes as in C50; the value of a sum of words is the wrapped sum |
| C143 | `BayerConv.forwardFlt`, `demosaicFlt` (Model/CfaWith.lean) | the convolution as a function of the window (`bayerForwardWith_eq`), the simulation of C138 through stores and slices; a weighted sum of floating-point numbers by cases |
| C144 | `demosaicRounded` (Model/CfaWith.lean) | the same evaluation with any scalar product, `Evaluates.chain` for 25 products, clamping is 1-Lipschitz |
| C145 | `poly1dWord`, `outer` at words (Model/MiscWith.lean) | the integers modulo 2^n are a ring, so C63 applies; the loop with wrapped powers by induction on the coefficients |
| C146 | `poly1dFlt`, `outer` at `Flt` (Model/MiscWith.lean) | the loop for one entry (`poly1dWith_eq`), induction on the coefficients; sums of infinities |
| C147 | `poly1dWith`, `outerWith` (Model/MiscWith.lean) | `Near1` through the loop: the i-th power has i - 1 roundings |
| C148 | `MsSsim.forwardWord`, `SSIM.csFullWord`, `SSIM.downsampleWord` (Model/IntMs.lean) | the blurs are zero (`steadyWord_small`), so the maps are ones at every scale; the loop by induction on the weights as in C61 |
| C149 | `EdgeLoss.withEdgesWord`, `l1Word`, `mulLossWord`, `sumLossWord`, `divLossWord` (Model/EdgeLossWord.lean) | the edges are words that reduce the integer responses (C134), stacked along the channels; the mean of words is an error except after the division, which gives floats |
| C150 | `EdgeLoss.withEdgesFlt`, `l1Flt`, `mulLossFlt`, `sumLossFlt`, `divLossFlt` (Model/EdgeLossFlt.lean) | masks: an entry of the padded image is finite where its source is (`pad_kept`), a response is finite only if its whole window is, so finite components need finite images; numbers give numbers (`padFlt_num`: two substitutes for what is not finite give the same pads) |
| C151 | `MsSsim.forwardFlt`, `levelsFlt`, `SSIM.csFullFlt`, `downsampleFlt` (Model/MsFlt.lean) | every pixel is in a window of its plane (`window_of`), the moments of that window are not finite, hence the quotient and the mean over the plane are NaN (`scoreFlt`), and NaN stays through products and sums (`AccFlt.step`); windows stay in their planes (`zeroed_corrSource`), so planes of numbers give the numbers of C80 by induction over the levels (`levelsFlt_eq`) |
| C152 | `mse`, `psnr`, `SSIM.forward`, `MsSsim.forward` (Model/Metrics.lean, MsSsim.lean) | the formulas of C55, C79 and C80 consist of affine maps, products, quotients and means; linear maps are sums over the pixels (`linear_sum`), affine ones differ from them by a constant (`Family.affine`), so any class of functions closed under arithmetic is preserved (`Family.maps`, `Family.msMap`); denominators are positive because blurred moments are possible moments; the cropped score is that without padding (C60); scores are at most one and one for equal images, a maximum |
| C153 | `EdgeFilter.allComponents`, `magnitude`, `EdgeLoss.forward` (Model/Edges.lean, EdgeLoss.lean) | the components are affine (`Spec.Family.affine`, `edgeResponse_blend`), roots and absolute values are smooth away from zero, and on a line through an image without edges the formulas of C75 and C85 are multiples of the absolute value (`differentiable_abs_mul`) |
| C154 | `UnsharpMask.forward` (Model/Edges.lean) | the blur is affine (`filtered_blend`), hence preserves smoothness (`filtered_family`); off the threshold the module is locally the identity or the affine formula of C45; at the threshold the limit from below is the sample itself and the value is the sharpened one (`switch_continuous`) |
| C155 | all `forward` methods with padders: `SepPool.forward`, `avgForwardExclude`, `UnsharpMask.forward`, `SSIM.forward`, `MsSsim.forward`, `EdgeFilter.component`, `allComponents`, `magnitudeInPlace`, `EdgeLoss` | invariant: the settings other than widths are kept; a call that pads first overwrites the widths (`Run.Settles`), and whatever precedes it only looks at the settings (`Run.Indep`); closed under sequencing, by induction on loops and on the history |
| C156 | the same methods in the models for integers (`forwardWord`, ...) and for entries that are not finite (`forwardFlt`, ...) | the same invariant; `pad` with any way of filling (`padVia`) settles the widths, the calls built on it by sequencing, histories by induction |
| C157 | `SepPool.forward`, `UnsharpMask.forward`, `EdgeFilter.allComponents` (Model/Pool.lean, Edges.lean) | one padding step commutes with blends (`padStep_blend`, from `affine_parts`), sequences of steps by induction, pooling and edge components from their closed forms (`same_blend`, `edgeResponse_blend`) |
| C158 | `EdgeLoss.forward`, `weightedMul`, `weightedDiv`, `weightedSum`, `EdgeFilter.magnitude` (Model/EdgeLoss.lean, Edges.lean) | the formulas of C75 and C85, edges commute with blends (`edgeResponse_blend`), the triangle inequality of the absolute value, and Minkowski's inequality from Mathlib with `epsilon` as one more component (`root_mix_le`) |
| C159 | `SepPool.gaussInit`, `SepPool.forward` (Model/Pool.lean, Gaussian.lean) | the closed forms of C34 and C19: every step is a finite sum of products of weights and pixels (`Family.slid`), padding is affine (`padSeq_blend`), the padded amounts depend on sizes only (`Weights.sameOps_eq`), and the derivatives of a bell curve are polynomials in the inverse square of sigma times a bell curve (`iterate_bellPoly`) |
| C160 | `SepPool.init`, `SepPool.forward` (Model/Pool.lean) | the closed forms of C30 and C24: every step is linear in its weights (`slide_mix`), later steps are linear in the image (`poolSeq_lincomb_fitting`), and the padded amounts depend on sizes and strides only (`SameSizes.sameOps_eq`) |
| C161 | `SSIM.init`, `SSIM.forward` (Model/Ssim.lean), `SepPool.gaussInit` (Model/Gaussian.lean) | the closed form of C79 and the families of C159: blurs of families with varying windows are families (`Weights.blurred`), denominators are positive (`positive_denominators`); at equal images the score is at its maximum 1; MS-SSIM likewise from the closed form of C80, level by level (`Weights.msMap`) |
| C162 | `SepPool.gaussInit` (Model/Gaussian.lean), `SepPool.avgInit`, `SepPool.forward` (Model/Pool.lean), `UnsharpMask.forward`, `SSIM.forward`, `MsSsim.forward` | the families of C159 over the class of functions that tend to their value at an added point (`arithmetic_tends`); limits of the weights (`gaussWeights_wide`, `gaussWeights_narrow`); a same-padded filter of spikes is the identity, since the amount padded before is half the size, as is the place of the spike (`filtered_spikes`); hence variances vanish in the limit of narrow SSIM windows |
| C163 | `EdgeFilter.allComponents`, `EdgeFilter.magnitude` (Model/Edges.lean) | the closed form of C75 as two filters one after the other, each a family by the families of C159 (`Weights.response`); the jump from `usedKernel` and the multiples of C160 |
| C164 | `EdgeFilter.gaussianGrad`, `EdgeFilter.allComponents` (Model/Edges.lean) | `gaussianGrad_built` and the families of C163 with the smooth Gaussian weights of C159; division by the sums changes nothing; the bound 2u < e^u + 2 keeps kernels of order one |
| C165 | `EdgeFilter.gaussianGrad`, `EdgeFilter.allComponents`, `EdgeFilter.magnitude` (Model/Edges.lean) | the families of C163 over the limits of C162: the weights are a polynomial in 1/sigma^2 without a constant term times a bell over the sum of bells (wide), or u e^(-u) over a sum of at least one (narrow, order one); the limit kernel is zero, and so is its response by the multiples of C160 |
| C166 | `UnsharpMask.init`, `UnsharpMask.forward` (Model/Edges.lean), `SepPool.gaussInit` | the closed form of C45 with the filtered families of C159; the threshold picks one of two smooth functions on a neighbourhood |
| C167 | `EdgeLoss.init`, `EdgeLoss.forward` (Model/EdgeLoss.lean), `EdgeFilter.gaussianGrad` | the closed form of C85 with the smooth families of C164 and the limits of C165 |
| C74 | `check_axes` | direct; refuted for `a = ndim` and ints; exact outcome `C74_outcome` |

Claims found false of the code keep their statement in `properties.jsonl`; the negation is proved on a
concrete witness and the true restriction is proved with suffix `_partial`.
