{
 "claims": [
  {
   "property": "C01",
   "status": "proved",
   "theorems": [
    "TI.C01_shape"
   ],
   "note": ""
  },
  {
   "property": "C02",
   "status": "proved",
   "theorems": [
    "TI.C02_original_samples"
   ],
   "note": ""
  },
  {
   "property": "C03",
   "status": "proved",
   "theorems": [
    "TI.C03_no_uninitialised"
   ],
   "note": ""
  },
  {
   "property": "C04",
   "status": "proved",
   "theorems": [
    "TI.C04_replicate",
    "TI.C04_copying_modes_mixed"
   ],
   "note": ""
  },
  {
   "property": "C05",
   "status": "proved",
   "theorems": [
    "TI.C05_circular"
   ],
   "note": ""
  },
  {
   "property": "C06",
   "status": "proved",
   "theorems": [
    "TI.C06_symmetric"
   ],
   "note": ""
  },
  {
   "property": "C07",
   "status": "proved",
   "theorems": [
    "TI.C07_reflect"
   ],
   "note": ""
  },
  {
   "property": "C08",
   "status": "proved",
   "theorems": [
    "TI.C08_antisymmetric"
   ],
   "note": ""
  },
  {
   "property": "C09",
   "status": "proved",
   "theorems": [
    "TI.C09_odd_reflect"
   ],
   "note": ""
  },
  {
   "property": "C10",
   "status": "proved",
   "theorems": [
    "TI.C10_odd_symmetric",
    "TI.C10_odd_symmetric_point"
   ],
   "note": ""
  },
  {
   "property": "C11",
   "status": "proved",
   "theorems": [
    "TI.C11_smooth"
   ],
   "note": ""
  },
  {
   "property": "C12",
   "status": "proved",
   "theorems": [
    "TI.C12_linear_ramp"
   ],
   "note": ""
  },
  {
   "property": "C13",
   "status": "proved",
   "theorems": [
    "TI.C13_constant"
   ],
   "note": ""
  },
  {
   "property": "C14",
   "status": "proved",
   "theorems": [
    "TI.C14_statistics",
    "TI.C14_stat_unique"
   ],
   "note": ""
  },
  {
   "property": "C15",
   "status": "proved",
   "theorems": [
    "TI.C15_periodize"
   ],
   "note": ""
  },
  {
   "property": "C16",
   "status": "proved",
   "theorems": [
    "TI.C16_forward_sequential",
    "TI.C16_forward_one_by_one"
   ],
   "note": "forward = fold of one-axis extensions, plus a formulation that only mentions calls of forward"
  },
  {
   "property": "C17",
   "status": "proved",
   "theorems": [
    "TI.C17_order_irrelevant",
    "TI.C17_order_irrelevant_uniform",
    "TI.C17_order_matters_for_constants",
    "TI.C17_order_agreeing"
   ],
   "note": "proved for every mode that is linear in the samples, more than claimed; the condition is shown to be needed"
  },
  {
   "property": "C18",
   "status": "proved",
   "theorems": [
    "TI.C18_nothing_to_pad"
   ],
   "note": ""
  },
  {
   "property": "C19",
   "status": "proved",
   "theorems": [
    "TI.C19_loops_terminate",
    "TI.C19_periodize_terminates",
    "TI.C19_empty_before_diverges",
    "TI.C19_empty_after_diverges",
    "TI.C19_mirror_empty_raises"
   ],
   "note": "termination bound; on an empty axis no looping mode terminates with the numpy bounds of forward (padding after only: all but odd_reflect), and the mirror modes raise ZeroDivisionError with the Python bounds of pad_axis"
  },
  {
   "property": "C20",
   "status": "partial",
   "theorems": [
    "TI.C20_zeros_returns_junk",
    "TI.C20_zeros1d_partial",
    "TI.C20_zeros_false",
    "TI.C20_zeros_then_other_raises"
   ],
   "note": "false of the code: zeros returns the uninitialised buffer (proved), raises TypeError when another mode follows (witness); pad_1d.zeros_1d itself is correct (partial theorem)"
  },
  {
   "property": "C21",
   "status": "proved",
   "theorems": [
    "TI.C21_right_justified"
   ],
   "note": ""
  },
  {
   "property": "C22",
   "status": "partial",
   "theorems": [
    "TI.C22_pad_axis_extends_partial",
    "TI.C22_pad_axis_forward_partial",
    "TI.C22_pad_axis_false",
    "TI.C22_pad_axis_odd",
    "TI.C22_pad_axis_iff"
   ],
   "note": "false for periodize on an odd axis (witness); proved for every other case. C22_pad_axis_iff gives the exact condition, and C22_pad_axis_odd the outcome in the remaining case (the result of forward without its last sample, or RuntimeError)"
  },
  {
   "property": "C23",
   "status": "proved",
   "theorems": [
    "TI.C23_int_is_pair",
    "TI.C23_singletons_are_pairs",
    "TI.C23_negative_pair",
    "TI.C23_negative_in_list",
    "TI.C23_no_negative_width"
   ],
   "note": ""
  },
  {
   "property": "C24",
   "status": "proved",
   "theorems": [
    "TI.C24_same_padding_size",
    "TI.C24_same_padding_unit_stride",
    "TI.C24_same_padding_default_stride",
    "TI.C24_same_padding_needs_size"
   ],
   "note": ""
  },
  {
   "property": "C25",
   "status": "proved",
   "theorems": [
    "TI.C25_same_padding_covers",
    "TI.C25_same_padding_minimal"
   ],
   "note": ""
  },
  {
   "property": "C26",
   "status": "proved",
   "theorems": [
    "TI.C26_conv1d",
    "TI.C26_conv_nd"
   ],
   "note": ""
  },
  {
   "property": "C27",
   "status": "proved",
   "theorems": [
    "TI.C27_numpy_roundtrip",
    "TI.C27_torch_roundtrip",
    "TI.C27_axis_order",
    "TI.C27_needs_ndim",
    "TI.C27_format",
    "TI.C27_checked",
    "TI.C27_check"
   ],
   "note": ""
  },
  {
   "property": "C28",
   "status": "proved",
   "theorems": [
    "TI.C28_n_original",
    "TI.C28_no_window"
   ],
   "note": ""
  },
  {
   "property": "C29",
   "status": "proved",
   "theorems": [
    "TI.C29_n_original_nd",
    "TI.C29_product"
   ],
   "note": ""
  },
  {
   "property": "C30",
   "status": "proved",
   "theorems": [
    "TI.C30_separable_is_correlation",
    "TI.C30_separable_entries",
    "TI.C30_constructor"
   ],
   "note": ""
  },
  {
   "property": "C31",
   "status": "partial",
   "theorems": [
    "TI.C31_same_shape",
    "TI.C31_filter_shape_iff",
    "TI.C31_valid_shape",
    "TI.C31_kernel_too_long",
    "TI.C31_wrong_number_of_axes",
    "TI.C31_same_shape_partial",
    "TI.C31_filter_shape_partial",
    "TI.C31_periodize_false"
   ],
   "note": "valid shapes, too long kernels and wrong axis counts proved in full; same-padded shapes: the claim is false in mode periodize on an axis of odd size (witness); C31_same_shape gives the exact shape in every mode (one more entry exactly for periodize, odd size, stride 1, at least two weights), C31_filter_shape_iff the exact condition for filters"
  },
  {
   "property": "C32",
   "status": "proved",
   "theorems": [
    "TI.C32_axis_order",
    "TI.C32_permuted_triples",
    "TI.C32_axis_order_same",
    "TI.C32_axis_order_uniform"
   ],
   "note": ""
  },
  {
   "property": "C33",
   "status": "proved",
   "theorems": [
    "TI.C33_linear",
    "TI.C33_linear_same"
   ],
   "note": ""
  },
  {
   "property": "C34",
   "status": "proved",
   "theorems": [
    "TI.C34_gaussian_kernels",
    "TI.C34_range_valid",
    "TI.C34_range_same",
    "TI.C34_constant_same",
    "TI.C34_constant_valid",
    "TI.C34_average_kernels",
    "TI.C34_average_negative"
   ],
   "note": "AvgPoolNd and GaussianPoolNd order 0 (C34_gaussian_kernels)"
  },
  {
   "property": "C35",
   "status": "proved",
   "theorems": [
    "TI.C35_history_irrelevant",
    "TI.C35_history_irrelevant_average",
    "TI.C35_state_after_call"
   ],
   "note": "arbitrary histories of pooling, count_include_pad=False, to_same and padding calls, failing or not"
  },
  {
   "property": "C36",
   "status": "partial",
   "theorems": [
    "TI.C36_iff",
    "TI.C36_sorted_axes_partial",
    "TI.C36_equal_sizes_partial",
    "TI.C36_no_padder_error",
    "TI.C36_unsorted_wrong_shape",
    "TI.C36_unsorted_error"
   ],
   "note": "Exact with zero padding for any order of the axes (C36_iff): the means and the shape are right iff the output sizes in the given order of the axes are those in increasing order. Otherwise false: uniform.py lays the counts out with swapped axes (C36_unsorted_wrong_shape, C36_unsorted_error). Without a same padder the option raises."
  },
  {
   "property": "C37",
   "status": "proved",
   "theorems": [
    "TI.C37_probability_vector",
    "TI.C37_entries",
    "TI.C37_invalid",
    "TI.C37_zero_sigma"
   ],
   "note": "over the reals; also the closed form of the entries and the two errors (negative order, sigma 0)"
  },
  {
   "property": "C38",
   "status": "proved",
   "theorems": [
    "TI.C38_derivative_samples",
    "TI.C38_even_sizes",
    "TI.C38_parity",
    "TI.C38_odd_order_sum"
   ],
   "note": "over the reals, against Mathlib iteratedDeriv, for all orders; even sizes are covered by C38_even_sizes"
  },
  {
   "property": "C39",
   "status": "partial",
   "theorems": [
    "TI.C39_empty",
    "TI.C39_iff",
    "TI.C39_any_conv_partial",
    "TI.C39_any_conv_unfold_partial",
    "TI.C39_bad_axis",
    "TI.C39_empty_axis_false"
   ],
   "note": "Exact (C39_iff): equal, including the errors, iff no axis is empty or the kernel is longer than the axis; every dilation: C39_any_conv_partial. With an empty axis any_conv_1d always raises (C39_empty), so the property is false there (C39_empty_axis_false)."
  },
  {
   "property": "C40",
   "status": "partial",
   "theorems": [
    "TI.C40_fast_path_partial",
    "TI.C40_fast_path_same",
    "TI.C40_fast_path_valid",
    "TI.C40_short_axis",
    "TI.C40_short_axis_false",
    "TI.C40_iff"
   ],
   "note": "Exact (C40_iff): equal iff the padded axis holds at least three samples; on a shorter padded axis the fast path returns an empty tensor where the generic convolution raises (witness C40_short_axis_false)."
  },
  {
   "property": "C41",
   "status": "partial",
   "theorems": [
    "TI.C41_kernel_used",
    "TI.C41_kernel_applied_partial",
    "TI.C41_integer_kernels",
    "TI.C41_other_lengths",
    "TI.C41_truncated_false",
    "TI.C41_laplacian_of_gaussian_false",
    "TI.C41_iff"
   ],
   "note": "False: the comparison with (-1,0,1) and (1,-2,1) truncates the coefficients, so other kernels are replaced (witnesses, among them LaplacianOfGaussian(3, 0.55)). Exact: C41_iff (the kernel is applied to all images iff it is not one of the replaced ones), C41_kernel_used (what is applied instead)."
  },
  {
   "property": "C42",
   "status": "partial",
   "theorems": [
    "TI.C42_components",
    "TI.C42_magnitude",
    "TI.C42_named",
    "TI.C42_gaussian_partial",
    "TI.C42_even_gaussian_false",
    "TI.C42_iff"
   ],
   "note": "Proved for every kernel whose used form sums to 0, including all named filters and GaussianGrad of odd edge size; exact for smoothing kernels of sum 1 (C42_iff); false for GaussianGrad of even edge size (witness)."
  },
  {
   "property": "C43",
   "status": "proved",
   "theorems": [
    "TI.C43_laplace"
   ],
   "note": "for at least two axes; one axis raises (C75_one_axis)"
  },
  {
   "property": "C44",
   "status": "proved",
   "theorems": [
    "TI.C44_normalised",
    "TI.C44_not_normalised"
   ],
   "note": ""
  },
  {
   "property": "C45",
   "status": "proved",
   "theorems": [
    "TI.C45_formula",
    "TI.C45_amount_zero",
    "TI.C45_fixed_by_blur",
    "TI.C45_threshold_nonpos",
    "TI.C45_blur_error",
    "TI.C45_pooling",
    "TI.C45_flat"
   ],
   "note": "for an arbitrary blur that keeps the shape, and for every pooling module with a same padder"
  },
  {
   "property": "C46",
   "status": "proved",
   "theorems": [
    "TI.C46_to_4c",
    "TI.C46_to_1c",
    "TI.C46_round_trip_1c",
    "TI.C46_round_trip_4c",
    "TI.C46_rejects"
   ],
   "note": "entry formulas, both round trips for any content of the uninitialised memory, and the rejected inputs"
  },
  {
   "property": "C47",
   "status": "proved",
   "theorems": [
    "TI.C47_four_channels",
    "TI.C47_entries"
   ],
   "note": "equality of the two routes, and the entries"
  },
  {
   "property": "C48",
   "status": "proved",
   "theorems": [
    "TI.C48_mosaic",
    "TI.C48_rejects"
   ],
   "note": "entries by colour of the pattern; rejected inputs"
  },
  {
   "property": "C49",
   "status": "proved",
   "theorems": [
    "TI.C49_assembly",
    "TI.C49_remosaic"
   ],
   "note": "entries of the three channels for any sides; re-mosaicing for even sides"
  },
  {
   "property": "C50",
   "status": "proved",
   "theorems": [
    "TI.C50_four_channels",
    "TI.C50_rejects",
    "TI.C50_one_channel",
    "TI.C50_constant_color"
   ],
   "note": "4-channel and 1-channel form, agreement, constant colours"
  },
  {
   "property": "C51",
   "status": "proved",
   "theorems": [
    "TI.C51_accepts",
    "TI.C51_rejects",
    "TI.C51_idempotent",
    "TI.C51_cells"
   ],
   "note": "exactly the names of the four patterns in any letter case; idempotence; cells of the four kinds of pixels"
  },
  {
   "property": "C52",
   "status": "partial",
   "theorems": [
    "TI.C52_centred_partial",
    "TI.C52_odd_side",
    "TI.C52_rejects",
    "TI.C52_side_three_witness",
    "TI.C52_outcome"
   ],
   "note": "proved for even sides, every kernel size (odd and even), weights, biases, alignments; false for side 3 (C52_side_three_witness): the result of the convolution has length one and is broadcast silently. C52_outcome with C52_rejects gives the exact outcome for all sides: for an odd kernel the last of three rows or columns is a copy of the first, every other odd side raises RuntimeError"
  },
  {
   "property": "C53",
   "status": "partial",
   "theorems": [
    "TI.C53_odd_witness",
    "TI.C53_unshuffle_partial",
    "TI.C53_outcome",
    "TI.C53_iff"
   ],
   "note": "proved for batches with even sides; false for odd sides (C53_odd_witness). C53_iff gives the exact condition, C53_outcome the exact outcome of forward_unshuffle for all sides"
  },
  {
   "property": "C54",
   "status": "proved",
   "theorems": [
    "TI.C54_formula",
    "TI.C54_rejects",
    "TI.C54_range",
    "TI.C54_flat"
   ],
   "note": "formula against the published filters, range, measured samples, flat fields"
  },
  {
   "property": "C55",
   "status": "proved",
   "theorems": [
    "TI.C55_mean",
    "TI.C55_sum",
    "TI.C55_none",
    "TI.C55_rejects_shapes",
    "TI.C55_rejects_reduction",
    "TI.C55_rejects_repeated",
    "TI.C55_symmetric",
    "TI.C55_total",
    "TI.C55_sum_is_mean_times_count",
    "TI.C55_nonneg",
    "TI.C55_zero_iff"
   ],
   "note": "all reductions, all axes arguments; zero iff equal needs a reduction over at least one non-empty axis"
  },
  {
   "property": "C56",
   "status": "proved",
   "theorems": [
    "TI.C56_formula",
    "TI.C56_symmetric",
    "TI.C56_decreasing",
    "TI.C56_scale"
   ],
   "note": "formula, symmetry, strict monotonicity, joint scaling; eps term included"
  },
  {
   "property": "C57",
   "status": "proved",
   "theorems": [
    "TI.C57_symmetric",
    "TI.C57_rejects_shapes"
   ],
   "note": "all blurs including averages over original samples, all padders and axes; the state of the padder after the call agrees too"
  },
  {
   "property": "C58",
   "status": "partial",
   "theorems": [
    "TI.C58_self_partial",
    "TI.C58_cropped_partial",
    "TI.C58_map_any_padding_partial",
    "TI.C58_gaussian",
    "TI.C58_mean",
    "TI.C58_padding_false",
    "TI.C58_exclude_partial",
    "TI.C58_exclude_cropped_partial"
   ],
   "note": "proved without padder, with padders that fill with samples, means or constants in [0,1], for the cropped score with all known modes (also empty and zeros; not periodize on odd axes), and for the default blurs; false for other paddings (C58_padding_false): the padder fills x and x*x with the same constant. The map with arbitrary padding is 1 wherever its denominator is not 0. Averages over original samples (count_include_pad=False, zero filling): C58_exclude_partial, C58_exclude_cropped_partial."
  },
  {
   "property": "C59",
   "status": "partial",
   "theorems": [
    "TI.C59_bounds_partial",
    "TI.C59_cropped_partial",
    "TI.C59_gaussian",
    "TI.C59_mean",
    "TI.C59_padding_false",
    "TI.C59_exclude_partial",
    "TI.C59_exclude_cropped_partial"
   ],
   "note": "as C58; false for constant padding outside [0,1] (C59_padding_false, default K1 and K2); averages over original samples: C59_exclude_partial, C59_exclude_cropped_partial"
  },
  {
   "property": "C60",
   "status": "partial",
   "theorems": [
    "TI.C60_cropped_score_partial",
    "TI.C60_padding_irrelevant_partial",
    "TI.C60_periodize_false",
    "TI.C60_exclude_partial"
   ],
   "note": "proved for all known modes, also empty and zeros, except periodize on axes of odd size, where it is false (C60_periodize_false); a widened zeros axis before a written one raises TypeError (C89_type_error); kernels not longer than the axes; averages over original samples: C60_exclude_partial"
  },
  {
   "property": "C61",
   "status": "partial",
   "theorems": [
    "TI.C61_cropped_self",
    "TI.C61_cropped_range",
    "TI.C61_exclude_self",
    "TI.C61_exclude_range",
    "TI.C61_padding_false",
    "TI.C61_symmetric",
    "TI.C61_rejects_shapes",
    "TI.C61_self_partial",
    "TI.C61_self_sum_partial",
    "TI.C61_range_partial",
    "TI.C61_range_sum_partial",
    "TI.C61_gaussian"
   ],
   "note": "symmetry for all inputs; self-similarity and range for kernels that are averages, at least two weights, images large enough: no padder; cropped with any known mode, also empty and zeros, also periodize if the sides stay even (C61_cropped_*); uncropped with padders that keep moments possible; averages over original samples (count_include_pad=False) with and without cropping (C61_exclude_*); default settings: C61_gaussian. Missing: uncropped maps with padders that make moments impossible, for which it is false (C61_padding_false)."
  },
  {
   "property": "C62",
   "status": "partial",
   "theorems": [
    "TI.C62_accepts_partial",
    "TI.C62_single_weight",
    "TI.C62_gaussian_false"
   ],
   "note": "false: a single weight always raises TypeError (C62_single_weight, C62_gaussian_false); two or more weights are accepted"
  },
  {
   "property": "C63",
   "status": "proved",
   "theorems": [
    "TI.C63_poly1d",
    "TI.C63_empty"
   ],
   "note": "for at least two coefficients (one coefficient: C64); no coefficients raise IndexError"
  },
  {
   "property": "C64",
   "status": "partial",
   "theorems": [
    "TI.C64_constant_false",
    "TI.C64_constant_partial"
   ],
   "note": "false: one coefficient raises TypeError (C64_constant_false); the constant is obtained with an explicit zero linear coefficient (C64_constant_partial)"
  },
  {
   "property": "C65",
   "status": "proved",
   "theorems": [
    "TI.C65_safe_power",
    "TI.C65_rejects_shapes",
    "TI.C65_sign",
    "TI.C65_negative_epsilon"
   ],
   "note": "for floating point base (tensors or scalars, broadcasting) and positive epsilon; negative integral exponents of zero are infinite, a negative epsilon gives NaN at zero (C65_negative_epsilon)"
  },
  {
   "property": "C66",
   "status": "proved",
   "theorems": [
    "TI.C66_outer",
    "TI.C66_outer_assoc"
   ],
   "note": ""
  },
  {
   "property": "C67",
   "status": "proved",
   "theorems": [
    "TI.C67_random_crop"
   ],
   "note": "for all draws; sizes smaller than the axis (other sizes: C68)"
  },
  {
   "property": "C68",
   "status": "partial",
   "theorems": [
    "TI.C68_iff",
    "TI.C68_reaches_partial",
    "TI.C68_full_size_false",
    "TI.C68_last_window_false"
   ],
   "note": "false: the last window is never drawn (C68_last_window_false) and full size raises RuntimeError (C68_full_size_false); exact: a non-empty window is drawn iff it ends before the end of every cropped axis (C68_iff)"
  },
  {
   "property": "C69",
   "status": "proved",
   "theorems": [
    "TI.C69_single_item",
    "TI.C69_scalar_pair",
    "TI.C69_scalar"
   ],
   "note": ""
  },
  {
   "property": "C70",
   "status": "proved",
   "theorems": [
    "TI.C70_list_of_items"
   ],
   "note": ""
  },
  {
   "property": "C71",
   "status": "partial",
   "theorems": [
    "TI.C71_ragged_shape_partial",
    "TI.C71_strict_data",
    "TI.C71_min_depth_false",
    "TI.C71_nonstrict_false",
    "TI.C71_nonstrict_partial"
   ],
   "note": "exact for arrays with all leaves at the same depth; false for mixed depths in strict mode (witness) and for nested lifting in non-strict mode (witness)"
  },
  {
   "property": "C72",
   "status": "proved",
   "theorems": [
    "TI.C72_expand",
    "TI.C72_expand_shorter",
    "TI.C72_incompatible",
    "TI.C72_zero_length",
    "TI.C72_empty"
   ],
   "note": "rectangular data with positive lengths, any target, including more or fewer axes; error for every incompatible target"
  },
  {
   "property": "C73",
   "status": "proved",
   "theorems": [
    "TI.C73_map",
    "TI.C73_apply",
    "TI.C73_apply_raises",
    "TI.C73_zip",
    "TI.C73_incompatible",
    "TI.C73_agg_incompatible",
    "TI.C73_index_shape",
    "TI.C73_index_axes",
    "TI.C73_agg_len",
    "TI.C73_nested_rejected"
   ],
   "note": ""
  },
  {
   "property": "C74",
   "status": "partial",
   "theorems": [
    "TI.C74_valid_partial",
    "TI.C74_slice",
    "TI.C74_sequence_rejects_partial",
    "TI.C74_int_false",
    "TI.C74_sequence_false",
    "TI.C74_outcome",
    "TI.C74_crop_wraps"
   ],
   "note": "exact for every kind of argument (C74_outcome for integers and sequences); false as stated because integers are never validated and ndim itself is accepted in sequences (witnesses); random_crop wraps integer axes twice (C74_crop_wraps)"
  },
  {
   "property": "C75",
   "status": "proved",
   "theorems": [
    "TI.C75_components",
    "TI.C75_horizontal_vertical",
    "TI.C75_magnitude",
    "TI.C75_zero_power",
    "TI.C75_one_axis"
   ],
   "note": ""
  },
  {
   "property": "C76",
   "status": "proved",
   "theorems": [
    "TI.C76_constant_response",
    "TI.C76_laplacian_of_gaussian"
   ],
   "note": ""
  },
  {
   "property": "C77",
   "status": "proved",
   "theorems": [
    "TI.C77_constant_color"
   ],
   "note": "every pixel including the borders"
  },
  {
   "property": "C78",
   "status": "proved",
   "theorems": [
    "TI.C78_affine"
   ],
   "note": "interior pixels; each channel has its own slopes"
  },
  {
   "property": "C79",
   "status": "proved",
   "theorems": [
    "TI.C79_formula",
    "TI.C79_windows",
    "TI.C79_exclude"
   ],
   "note": "C79_formula for any kernels with or without padder; C79_windows spells out the weighted window sums; C79_exclude for averages over original samples"
  },
  {
   "property": "C80",
   "status": "proved",
   "theorems": [
    "TI.C80_cropped",
    "TI.C80_padding_irrelevant",
    "TI.C80_exclude",
    "TI.C80_formula",
    "TI.C80_rejects_small",
    "TI.C80_no_weights"
   ],
   "note": "product and sum form, with and without padder and cropping; averages over original samples (C80_exclude); any known padder when cropping (C80_cropped); too small images are rejected"
  },
  {
   "property": "C81",
   "status": "partial",
   "theorems": [
    "TI.C81_truncates_exponent",
    "TI.C81_truncates_base",
    "TI.C81_integers_partial",
    "TI.C81_zero_raises",
    "TI.C81_negative_exponent",
    "TI.C81_root_of_four_false",
    "TI.C81_half_false"
   ],
   "note": "false: with an integer tensor a float exponent or base is truncated (C81_truncates_*, C81_root_of_four_false), zero with a fractional exponent raises (C81_zero_raises); negative integer powers of integers are 0 (C81_negative_exponent, C81_half_false); C81_integers_partial states what holds for pairs of tensors"
  },
  {
   "property": "C82",
   "status": "proved",
   "theorems": [
    "TI.C82_gauss",
    "TI.C82_gauss_zero",
    "TI.C82_poisson_gauss",
    "TI.C82_poisson_zero",
    "TI.C82_poisson_rejects"
   ],
   "note": "for all outcomes of the draws, k other than 0"
  },
  {
   "property": "C83",
   "status": "proved",
   "theorems": [
    "TI.C83_describe",
    "TI.C83_empty",
    "TI.C83_ordered",
    "TI.C83_permutation"
   ],
   "note": "over the reals; limits of torch.quantile on the number of elements are not modelled"
  },
  {
   "property": "C84",
   "status": "proved",
   "theorems": [
    "TI.C84_geometry",
    "TI.C84_scaling",
    "TI.C84_distance",
    "TI.C84_zero",
    "TI.C84_hdrvdp3"
   ],
   "note": "over the reals"
  },
  {
   "property": "C85",
   "status": "proved",
   "theorems": [
    "TI.C85_edge_loss",
    "TI.C85_weighted_mul",
    "TI.C85_weighted_sum",
    "TI.C85_distance",
    "TI.C85_zero_iff",
    "TI.C85_triangle",
    "TI.C85_weighted_div",
    "TI.C85_weighted_div_zero",
    "TI.C85_init"
   ],
   "note": ""
  },
  {
   "property": "C86",
   "status": "partial",
   "theorems": [
    "TI.C86_odd_order",
    "TI.C86_negative_false",
    "TI.C86_constant_truth",
    "TI.C86_nonneg_partial"
   ],
   "note": "False: WeightedMul and WeightedDiv weight with signed edges and can be negative (C86_negative_false); WeightedDiv of an odd order and odd kernel size is never a number, for any images (C86_odd_order; C86_constant_truth is the special case of constant true images). Plain loss and WeightedSum are non-negative always (C85_distance); C86_nonneg_partial: WeightedMul if the true edges are non-negative, WeightedDiv if they are positive."
  },
  {
   "property": "C87",
   "status": "proved",
   "theorems": [
    "TI.C87_pair_is_same_padding",
    "TI.C87_pair_splits"
   ],
   "note": ""
  },
  {
   "property": "C88",
   "status": "proved",
   "theorems": [
    "TI.C88_exclude",
    "TI.C88_one_iff_equal",
    "TI.C88_cropped",
    "TI.C88_gaussian",
    "TI.C88_mean"
   ],
   "note": ""
  },
  {
   "property": "C89",
   "status": "proved",
   "theorems": [
    "TI.C89_forward",
    "TI.C89_entries",
    "TI.C89_interior",
    "TI.C89_deterministic_part",
    "TI.C89_type_error"
   ],
   "note": "modes empty and zeros mixed with value-defining modes; the content of the fresh buffer is a parameter"
  },
  {
   "property": "C90",
   "status": "proved",
   "theorems": [
    "TI.C90_twice",
    "TI.C90_constructor",
    "TI.C90_averages",
    "TI.C90_levels",
    "TI.C90_built"
   ],
   "note": ""
  },
  {
   "property": "C91",
   "status": "partial",
   "theorems": [
    "TI.C91_mirrored_partial",
    "TI.C91_symmetric_partial",
    "TI.C91_periodize_false",
    "TI.C91_periodize_iff"
   ],
   "note": "False for periodize on an axis of odd size (C91_periodize_false): the last sample is repeated before wrapping. Proved for every other mode and for even sizes; C91_periodize_iff: in the remaining case it holds exactly for tensors constant along the axis."
  },
  {
   "property": "C92",
   "status": "proved",
   "theorems": [
    "TI.C92_reversed",
    "TI.C92_same",
    "TI.C92_odd"
   ],
   "note": ""
  },
  {
   "property": "C93",
   "status": "partial",
   "theorems": [
    "TI.C93_mse",
    "TI.C93_ssim",
    "TI.C93_ssim_cropped",
    "TI.C93_psnr",
    "TI.C93_msssim_partial",
    "TI.C93_gaussian",
    "TI.C93_even_false",
    "TI.C93_downsample_odd_false"
   ],
   "note": "MSE, PSNR and SSIM are complete; SSIM with an even kernel and a padder is refuted (C93_even_false); MS-SSIM needs sizes that can be halved exactly (C93_downsample_odd_false)."
  },
  {
   "property": "C94",
   "status": "proved",
   "theorems": [
    "TI.C94_pad",
    "TI.C94_pool",
    "TI.C94_pool_same",
    "TI.C94_edges",
    "TI.C94_mse",
    "TI.C94_ssim",
    "TI.C94_psnr",
    "TI.C94_msssim"
   ],
   "note": ""
  },
  {
   "property": "C95",
   "status": "proved",
   "theorems": [
    "TI.C95_pad",
    "TI.C95_pool",
    "TI.C95_pool_same",
    "TI.C95_pool_uniform",
    "TI.C95_edges",
    "TI.C95_mse",
    "TI.C95_ssim",
    "TI.C95_msssim"
   ],
   "note": ""
  },
  {
   "property": "C96",
   "status": "proved",
   "theorems": [
    "TI.C96_pad",
    "TI.C96_pad_copy",
    "TI.C96_pool",
    "TI.C96_pool_same",
    "TI.C96_mse",
    "TI.C96_ssim",
    "TI.C96_msssim"
   ],
   "note": ""
  },
  {
   "property": "C97",
   "status": "proved",
   "theorems": [
    "TI.C97_interior",
    "TI.C97_local",
    "TI.C97_formula"
   ],
   "note": ""
  },
  {
   "property": "C98",
   "status": "proved",
   "theorems": [
    "TI.C98_interior",
    "TI.C98_straight",
    "TI.C98_symmetric_interior",
    "TI.C98_symmetric_straight",
    "TI.C98_unsharp",
    "TI.C98_box_kernels",
    "TI.C98_gaussian_kernels",
    "TI.C98_gaussian_blur"
   ],
   "note": ""
  },
  {
   "property": "C99",
   "status": "proved",
   "theorems": [
    "TI.C99_components",
    "TI.C99_magnitude",
    "TI.C99_straight",
    "TI.C99_kernels",
    "TI.C99_gain",
    "TI.C99_named",
    "TI.C99_laplace",
    "TI.C99_gaussian_moment",
    "TI.C99_gaussian"
   ],
   "note": ""
  },
  {
   "property": "C100",
   "status": "proved",
   "theorems": [
    "TI.C100_callable",
    "TI.C100_shape_samples",
    "TI.C100_every_rule",
    "TI.C100_library_rules",
    "TI.C100_names",
    "TI.C100_periodize_false"
   ],
   "note": "the exception of the statement, periodize, is C100_periodize_false"
  },
  {
   "property": "C101",
   "status": "proved",
   "theorems": [
    "TI.C101_pad",
    "TI.C101_pad_close",
    "TI.C101_pool",
    "TI.C101_pool_same",
    "TI.C101_filter_close"
   ],
   "note": ""
  },
  {
   "property": "C102",
   "status": "proved",
   "theorems": [
    "TI.C102_shape",
    "TI.C102_spec",
    "TI.C102_spec_index",
    "TI.C102_items",
    "TI.C102_zero_target",
    "TI.C102_empty_array"
   ],
   "note": ""
  },
  {
   "property": "C103",
   "status": "proved",
   "theorems": [
    "TI.C103_axiswise",
    "TI.C103_split",
    "TI.C103_uniform",
    "TI.C103_hypotheses"
   ],
   "note": ""
  },
  {
   "property": "C104",
   "status": "proved",
   "theorems": [
    "TI.C104_roll",
    "TI.C104_mass",
    "TI.C104_mse",
    "TI.C104_ssim"
   ],
   "note": ""
  },
  {
   "property": "C105",
   "status": "proved",
   "theorems": [
    "TI.C105_two_steps",
    "TI.C105_circular_steps_differ",
    "TI.C105_constants_steps_differ"
   ],
   "note": ""
  },
  {
   "property": "C106",
   "status": "proved",
   "theorems": [
    "TI.C106_narrower",
    "TI.C106_ramps_differ"
   ],
   "note": ""
  },
  {
   "property": "C107",
   "status": "proved",
   "theorems": [
    "TI.C107_swapped",
    "TI.C107_mirrored",
    "TI.C107_upturned",
    "TI.C107_transposed",
    "TI.C107_scaled",
    "TI.C107_part"
   ],
   "note": ""
  },
  {
   "property": "C108",
   "status": "proved",
   "theorems": [
    "TI.C108_stable",
    "TI.C108_local"
   ],
   "note": ""
  },
  {
   "property": "C109",
   "status": "proved",
   "theorems": [
    "TI.C109_one_iff_equal",
    "TI.C109_sum",
    "TI.C109_gaussian",
    "TI.C109_single_entry",
    "TI.C109_single_entry_false"
   ],
   "note": "C109_single_entry_false shows that the condition on the kernel length is needed"
  },
  {
   "property": "C110",
   "status": "proved",
   "theorems": [
    "TI.C110_shifted",
    "TI.C110_brighter",
    "TI.C110_constant",
    "TI.C110_mse",
    "TI.C110_psnr",
    "TI.C110_ms_constant",
    "TI.C110_ms_constant_sum",
    "TI.C110_ms_shifted",
    "TI.C110_gaussian"
   ],
   "note": ""
  },
  {
   "property": "C111",
   "status": "proved",
   "theorems": [
    "TI.C111_mirrored",
    "TI.C111_magnitude_mirrored",
    "TI.C111_kernels",
    "TI.C111_named",
    "TI.C111_laplace",
    "TI.C111_rolled",
    "TI.C111_magnitude_rolled",
    "TI.C111_grey",
    "TI.C111_magnitude_grey",
    "TI.C111_gaussian"
   ],
   "note": ""
  },
  {
   "property": "C112",
   "status": "proved",
   "theorems": [
    "TI.C112_mirrored",
    "TI.C112_rolled",
    "TI.C112_transposed",
    "TI.C112_batch",
    "TI.C112_grey",
    "TI.C112_amount",
    "TI.C112_blur",
    "TI.C112_change",
    "TI.C112_overshoot",
    "TI.C112_mass"
   ],
   "note": ""
  },
  {
   "property": "C113",
   "status": "proved",
   "theorems": [
    "TI.C113_pad",
    "TI.C113_pool",
    "TI.C113_small_kernels",
    "TI.C113_edges",
    "TI.C113_conditions",
    "TI.C113_conditions_ramp"
   ],
   "note": ""
  },
  {
   "property": "C114",
   "status": "proved",
   "theorems": [
    "TI.C114_pool_close",
    "TI.C114_components_linear",
    "TI.C114_components_close",
    "TI.C114_difference",
    "TI.C114_lipschitz",
    "TI.C114_sum_le",
    "TI.C114_grey",
    "TI.C114_mirrored",
    "TI.C114_transposed",
    "TI.C114_mirrored_mul",
    "TI.C114_grey_div",
    "TI.C114_gaussian"
   ],
   "note": ""
  },
  {
   "property": "C115",
   "status": "proved",
   "theorems": [
    "TI.C115_border",
    "TI.C115_corner",
    "TI.C115_kernels",
    "TI.C115_weighted_div",
    "TI.C115_conditions"
   ],
   "note": ""
  },
  {
   "property": "C116",
   "status": "proved",
   "theorems": [
    "TI.C116_mse",
    "TI.C116_ssim",
    "TI.C116_ssim_cropped",
    "TI.C116_edge_loss",
    "TI.C116_weighted_mul",
    "TI.C116_weighted_sum",
    "TI.C116_weighted_div",
    "TI.C116_msssim",
    "TI.C116_psnr"
   ],
   "note": ""
  },
  {
   "property": "C117",
   "status": "proved",
   "theorems": [
    "TI.C117_mixture",
    "TI.C117_convex",
    "TI.C117_bias",
    "TI.C117_best_constant",
    "TI.C117_bounds",
    "TI.C117_triangle",
    "TI.C117_psnr_close",
    "TI.C117_psnr_mixture"
   ],
   "note": ""
  },
  {
   "property": "C118",
   "status": "proved",
   "theorems": [
    "TI.C118_total",
    "TI.C118_mean",
    "TI.C118_energy",
    "TI.C118_mse",
    "TI.C118_average",
    "TI.C118_psnr",
    "TI.C118_gaussian",
    "TI.C118_total_conditions",
    "TI.C118_average_conditions"
   ],
   "note": ""
  },
  {
   "property": "C119",
   "status": "proved",
   "theorems": [
    "TI.C119_valid",
    "TI.C119_same",
    "TI.C119_blocks",
    "TI.C119_downsample",
    "TI.C119_ramps_differ",
    "TI.C119_blocks_conditions"
   ],
   "note": ""
  },
  {
   "property": "C120",
   "status": "proved",
   "theorems": [
    "TI.C120_ratio",
    "TI.C120_unimodal",
    "TI.C120_logconcave",
    "TI.C120_sigma_sign",
    "TI.C120_single",
    "TI.C120_wider",
    "TI.C120_limit_average",
    "TI.C120_limit_identity",
    "TI.C120_first_order",
    "TI.C120_recursion"
   ],
   "note": ""
  },
  {
   "property": "C121",
   "status": "proved",
   "theorems": [
    "TI.C121_affine",
    "TI.C121_negative",
    "TI.C121_constant",
    "TI.C121_std_zero",
    "TI.C121_monotone",
    "TI.C121_std_range"
   ],
   "note": ""
  },
  {
   "property": "C122",
   "status": "partial",
   "theorems": [
    "TI.C122_entries",
    "TI.C122_odd",
    "TI.C122_order_partial",
    "TI.C122_zero_order",
    "TI.C122_order_false",
    "TI.C122_product",
    "TI.C122_inverse",
    "TI.C122_exponents"
   ],
   "note": "entries, oddness, products, inverse powers proved; the order is kept except around zero, which counts as epsilon (C122_order_false)"
  },
  {
   "property": "C123",
   "status": "proved",
   "theorems": [
    "TI.C123_outer_sum",
    "TI.C123_outer_linear",
    "TI.C123_outer_linear_right",
    "TI.C123_horner",
    "TI.C123_leading_zeros",
    "TI.C123_linear",
    "TI.C123_step",
    "TI.C123_root"
   ],
   "note": ""
  },
  {
   "property": "C124",
   "status": "proved",
   "theorems": [
    "TI.C124_eigen",
    "TI.C124_response",
    "TI.C124_modes",
    "TI.C124_wave",
    "TI.C124_phase",
    "TI.C124_parity",
    "TI.C124_bound",
    "TI.C124_damped",
    "TI.C124_box",
    "TI.C124_box_zero",
    "TI.C124_sharpen"
   ],
   "note": ""
  },
  {
   "property": "C125",
   "status": "proved",
   "theorems": [
    "TI.C125_apply",
    "TI.C125_zip",
    "TI.C125_map",
    "TI.C125_ragged",
    "TI.C125_different",
    "TI.C125_construct",
    "TI.C125_depth_conditions"
   ],
   "note": ""
  },
  {
   "property": "C126",
   "status": "proved",
   "theorems": [
    "TI.C126_stride",
    "TI.C126_stride_average",
    "TI.C126_pad_scalar",
    "TI.C126_pad_axis",
    "TI.C126_unknown_mode_axis",
    "TI.C126_unknown_mode",
    "TI.C126_any_conv",
    "TI.C126_pool_axis",
    "TI.C126_pool_ndim",
    "TI.C126_pool_wraps",
    "TI.C126_exclude_repeated",
    "TI.C126_zero_stride",
    "TI.C126_check_padding",
    "TI.C126_edge_kernels",
    "TI.C126_component",
    "TI.C126_edge_loss",
    "TI.C126_width_rows",
    "TI.C126_count_rows"
   ],
   "note": ""
  },
  {
   "property": "C127",
   "status": "proved",
   "theorems": [
    "TI.C127_repeated",
    "TI.C127_shape",
    "TI.C127_one_by_one",
    "TI.C127_replicate_twice",
    "TI.C127_constant_twice",
    "TI.C127_linear_ramp_differ",
    "TI.C127_periodize_differ",
    "TI.C127_pool",
    "TI.C127_pool_one_by_one"
   ],
   "note": ""
  },
  {
   "property": "C128",
   "status": "proved",
   "theorems": [
    "TI.C128_padder",
    "TI.C128_padder_widths",
    "TI.C128_pool",
    "TI.C128_pool_kernels",
    "TI.C128_powers",
    "TI.C128_kept",
    "TI.C128_identity",
    "TI.C128_identity_differ"
   ],
   "note": ""
  },
  {
   "property": "C129",
   "status": "proved",
   "theorems": [
    "TI.C129_adjoint",
    "TI.C129_self_adjoint",
    "TI.C129_commute",
    "TI.C129_compose",
    "TI.C129_components",
    "TI.C129_balanced",
    "TI.C129_laplace",
    "TI.C129_named",
    "TI.C129_adjoint_conditions",
    "TI.C129_order_conditions",
    "TI.C129_laplace_conditions"
   ],
   "note": ""
  },
  {
   "property": "C130",
   "status": "proved",
   "theorems": [
    "TI.C130_outcome",
    "TI.C130_exact",
    "TI.C130_error",
    "TI.C130_error_same",
    "TI.C130_error_plain",
    "TI.C130_two_ways",
    "TI.C130_uniform",
    "TI.C130_relative",
    "TI.C130_zero",
    "TI.C130_small",
    "TI.C130_mse",
    "TI.C130_mse_zero",
    "TI.C130_attained",
    "TI.C130_conditions"
   ],
   "note": ""
  },
  {
   "property": "C131",
   "status": "proved",
   "theorems": [
    "TI.C131_wraps",
    "TI.C131_fits",
    "TI.C131_integer_weights",
    "TI.C131_zero",
    "TI.C131_average",
    "TI.C131_same",
    "TI.C131_gaussian",
    "TI.C131_differ"
   ],
   "note": ""
  },
  {
   "property": "C132",
   "status": "proved",
   "theorems": [
    "TI.C132_outcome",
    "TI.C132_wraps",
    "TI.C132_fits",
    "TI.C132_exact",
    "TI.C132_ramp",
    "TI.C132_mean_rejects",
    "TI.C132_differ"
   ],
   "note": ""
  },
  {
   "property": "C133",
   "status": "proved",
   "theorems": [
    "TI.C133_wraps",
    "TI.C133_same",
    "TI.C133_fits",
    "TI.C133_exact",
    "TI.C133_zero",
    "TI.C133_plain",
    "TI.C133_differ"
   ],
   "note": ""
  },
  {
   "property": "C134",
   "status": "proved",
   "theorems": [
    "TI.C134_components",
    "TI.C134_exact",
    "TI.C134_zero",
    "TI.C134_named",
    "TI.C134_magnitude",
    "TI.C134_rejects",
    "TI.C134_laplace",
    "TI.C134_differ"
   ],
   "note": ""
  },
  {
   "property": "C135",
   "status": "proved",
   "theorems": [
    "TI.C135_formula",
    "TI.C135_exact",
    "TI.C135_brightens",
    "TI.C135_average",
    "TI.C135_gaussian",
    "TI.C135_differ"
   ],
   "note": ""
  },
  {
   "property": "C136",
   "status": "proved",
   "theorems": [
    "TI.C136_none",
    "TI.C136_sum",
    "TI.C136_rejects_mean",
    "TI.C136_rejects",
    "TI.C136_rejects_reduction",
    "TI.C136_rejects_repeated",
    "TI.C136_symmetric",
    "TI.C136_zero_iff",
    "TI.C136_entry",
    "TI.C136_exact",
    "TI.C136_psnr",
    "TI.C136_differ"
   ],
   "note": ""
  },
  {
   "property": "C137",
   "status": "proved",
   "theorems": [
    "TI.C137_formula",
    "TI.C137_blind",
    "TI.C137_cropped",
    "TI.C137_mean",
    "TI.C137_gaussian",
    "TI.C137_differ"
   ],
   "note": ""
  },
  {
   "property": "C138",
   "status": "proved",
   "theorems": [
    "TI.C138_pad",
    "TI.C138_pad_nan",
    "TI.C138_copies",
    "TI.C138_pool",
    "TI.C138_pool_nan",
    "TI.C138_windows",
    "TI.C138_values",
    "TI.C138_infinite",
    "TI.C138_mask",
    "TI.C138_stat_nan",
    "TI.C138_stat",
    "TI.C138_stat_median",
    "TI.C138_differ",
    "TI.C138_support"
   ],
   "note": ""
  },
  {
   "property": "C139",
   "status": "proved",
   "theorems": [
    "TI.C139_sharpen",
    "TI.C139_sharpen_finite",
    "TI.C139_mse",
    "TI.C139_mse_none",
    "TI.C139_mse_sum",
    "TI.C139_mse_mean",
    "TI.C139_mse_sign",
    "TI.C139_component",
    "TI.C139_first",
    "TI.C139_second",
    "TI.C139_differ"
   ],
   "note": ""
  },
  {
   "property": "C140",
   "status": "proved",
   "theorems": [
    "TI.C140_forward",
    "TI.C140_map",
    "TI.C140_division",
    "TI.C140_single",
    "TI.C140_score",
    "TI.C140_pixels",
    "TI.C140_differ"
   ],
   "note": ""
  },
  {
   "property": "C141",
   "status": "proved",
   "theorems": [
    "TI.C141_sharpen_outcome",
    "TI.C141_sharpen_exact",
    "TI.C141_sharpen",
    "TI.C141_component",
    "TI.C141_zero",
    "TI.C141_component_exact",
    "TI.C141_conditions"
   ],
   "note": ""
  },
  {
   "property": "C142",
   "status": "proved",
   "theorems": [
    "TI.C142_four_channels",
    "TI.C142_one_channel",
    "TI.C142_exact",
    "TI.C142_green",
    "TI.C142_rejects",
    "TI.C142_demosaic"
   ],
   "note": ""
  },
  {
   "property": "C143",
   "status": "proved",
   "theorems": [
    "TI.C143_forward",
    "TI.C143_filter",
    "TI.C143_outcome",
    "TI.C143_estimate",
    "TI.C143_measured",
    "TI.C143_finite",
    "TI.C143_range"
   ],
   "note": ""
  },
  {
   "property": "C144",
   "status": "proved",
   "theorems": [
    "TI.C144_outcome",
    "TI.C144_exact",
    "TI.C144_error",
    "TI.C144_scale",
    "TI.C144_range"
   ],
   "note": ""
  },
  {
   "property": "C145",
   "status": "proved",
   "theorems": [
    "TI.C145_integers",
    "TI.C145_exact_iff",
    "TI.C145_float",
    "TI.C145_rejects",
    "TI.C145_outer"
   ],
   "note": ""
  },
  {
   "property": "C146",
   "status": "proved",
   "theorems": [
    "TI.C146_entries",
    "TI.C146_zero",
    "TI.C146_outer"
   ],
   "note": ""
  },
  {
   "property": "C147",
   "status": "proved",
   "theorems": [
    "TI.C147_polynomial",
    "TI.C147_relative",
    "TI.C147_outer"
   ],
   "note": ""
  },
  {
   "property": "C148",
   "status": "proved",
   "theorems": [
    "TI.C148_blind",
    "TI.C148_blind_sum",
    "TI.C148_rejects_shapes",
    "TI.C148_rejects_small",
    "TI.C148_gaussian"
   ],
   "note": ""
  },
  {
   "property": "C149",
   "status": "proved",
   "theorems": [
    "TI.C149_rejects",
    "TI.C149_weighted_div",
    "TI.C149_nan",
    "TI.C149_init"
   ],
   "note": ""
  },
  {
   "property": "C150",
   "status": "proved",
   "theorems": [
    "TI.C150_edge_loss",
    "TI.C150_weighted_mul",
    "TI.C150_weighted_div",
    "TI.C150_weighted_sum",
    "TI.C150_init"
   ],
   "note": ""
  },
  {
   "property": "C151",
   "status": "proved",
   "theorems": [
    "TI.C151_scores",
    "TI.C151_hidden",
    "TI.C151_rejects_shapes",
    "TI.C151_rejects_small",
    "TI.C151_rejects_short"
   ],
   "note": ""
  },
  {
   "property": "C152",
   "status": "proved",
   "theorems": [
    "TI.C152_mse",
    "TI.C152_mse_gradient",
    "TI.C152_psnr",
    "TI.C152_ssim",
    "TI.C152_ssim_cropped",
    "TI.C152_ssim_defined",
    "TI.C152_msssim",
    "TI.C152_msssim_continuous"
   ],
   "note": ""
  },
  {
   "property": "C153",
   "status": "proved",
   "theorems": [
    "TI.C153_components",
    "TI.C153_magnitude",
    "TI.C153_magnitude_kink",
    "TI.C153_loss_kink",
    "TI.C153_loss_smooth"
   ],
   "note": ""
  },
  {
   "property": "C154",
   "status": "proved",
   "theorems": [
    "TI.C154_smooth",
    "TI.C154_jump",
    "TI.C154_derivative"
   ],
   "note": ""
  },
  {
   "property": "C155",
   "status": "proved",
   "theorems": [
    "TI.C155_shared",
    "TI.C155_edge",
    "TI.C155_settings",
    "TI.C155_state",
    "TI.C155_ssim"
   ],
   "note": ""
  },
  {
   "property": "C156",
   "status": "proved",
   "theorems": [
    "TI.C156_numbers",
    "TI.C156_integers",
    "TI.C156_floats",
    "TI.C156_settings"
   ],
   "note": ""
  },
  {
   "property": "C157",
   "status": "proved",
   "theorems": [
    "TI.C157_pool",
    "TI.C157_sharpen",
    "TI.C157_edges",
    "TI.C157_differ"
   ],
   "note": ""
  },
  {
   "property": "C158",
   "status": "proved",
   "theorems": [
    "TI.C158_loss",
    "TI.C158_weighted_mul",
    "TI.C158_weighted_sum_differ",
    "TI.C158_weighted_div",
    "TI.C158_magnitude",
    "TI.C158_magnitude_triangle"
   ],
   "note": ""
  },
  {
   "property": "C159",
   "status": "proved",
   "theorems": [
    "TI.C159_valid",
    "TI.C159_same",
    "TI.C159_gaussian"
   ],
   "note": ""
  },
  {
   "property": "C160",
   "status": "proved",
   "theorems": [
    "TI.C160_valid",
    "TI.C160_same",
    "TI.C160_multiples",
    "TI.C160_multiples_same"
   ],
   "note": ""
  },
  {
   "property": "C161",
   "status": "proved",
   "theorems": [
    "TI.C161_ssim",
    "TI.C161_gaussian",
    "TI.C161_msssim",
    "TI.C161_msssim_gaussian"
   ],
   "note": ""
  },
  {
   "property": "C162",
   "status": "proved",
   "theorems": [
    "TI.C162_wide",
    "TI.C162_wide_same",
    "TI.C162_narrow",
    "TI.C162_sharpen",
    "TI.C162_ssim",
    "TI.C162_msssim",
    "TI.C162_ssim_narrow",
    "TI.C162_sharpen_wide"
   ],
   "note": ""
  },
  {
   "property": "C163",
   "status": "proved",
   "theorems": [
    "TI.C163_components",
    "TI.C163_magnitude",
    "TI.C163_jump"
   ],
   "note": ""
  },
  {
   "property": "C164",
   "status": "proved",
   "theorems": [
    "TI.C164_kept",
    "TI.C164_replaced",
    "TI.C164_components",
    "TI.C164_magnitude",
    "TI.C164_laplacian_of_gaussian"
   ],
   "note": ""
  },
  {
   "property": "C165",
   "status": "proved",
   "theorems": [
    "TI.C165_components",
    "TI.C165_magnitude",
    "TI.C165_narrow",
    "TI.C165_narrow_magnitude",
    "TI.C165_second_order"
   ],
   "note": ""
  },
  {
   "property": "C166",
   "status": "proved",
   "theorems": [
    "TI.C166_sharpen",
    "TI.C166_gaussian"
   ],
   "note": ""
  },
  {
   "property": "C167",
   "status": "proved",
   "theorems": [
    "TI.C167_smooth",
    "TI.C167_wide",
    "TI.C167_narrow"
   ],
   "note": ""
  }
 ]
}