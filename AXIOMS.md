# Axioms of the theorems named in MANIFEST.json

Printed by `#print axioms`.

| property | theorem | axioms |
|---|---|---|
| C01 | `TI.C01_shape` | propext, Classical.choice, Quot.sound |
| C02 | `TI.C02_original_samples` | propext, Classical.choice, Quot.sound |
| C03 | `TI.C03_no_uninitialised` | propext, Classical.choice, Quot.sound |
| C04 | `TI.C04_replicate` | propext, Classical.choice, Quot.sound |
| C04 | `TI.C04_copying_modes_mixed` | propext, Classical.choice, Quot.sound |
| C05 | `TI.C05_circular` | propext, Classical.choice, Quot.sound |
| C06 | `TI.C06_symmetric` | propext, Classical.choice, Quot.sound |
| C07 | `TI.C07_reflect` | propext, Classical.choice, Quot.sound |
| C08 | `TI.C08_antisymmetric` | propext, Classical.choice, Quot.sound |
| C09 | `TI.C09_odd_reflect` | propext, Classical.choice, Quot.sound |
| C10 | `TI.C10_odd_symmetric` | propext, Classical.choice, Quot.sound |
| C10 | `TI.C10_odd_symmetric_point` | propext, Classical.choice, Quot.sound |
| C11 | `TI.C11_smooth` | propext, Classical.choice, Quot.sound |
| C12 | `TI.C12_linear_ramp` | propext, Classical.choice, Quot.sound |
| C13 | `TI.C13_constant` | propext, Classical.choice, Quot.sound |
| C14 | `TI.C14_statistics` | propext, Classical.choice, Quot.sound |
| C14 | `TI.C14_stat_unique` | propext, Classical.choice, Quot.sound |
| C15 | `TI.C15_periodize` | propext, Classical.choice, Quot.sound |
| C16 | `TI.C16_forward_sequential` | propext, Classical.choice, Quot.sound |
| C16 | `TI.C16_forward_one_by_one` | propext, Classical.choice, Quot.sound |
| C17 | `TI.C17_order_irrelevant` | propext, Classical.choice, Quot.sound |
| C17 | `TI.C17_order_irrelevant_uniform` | propext, Classical.choice, Quot.sound |
| C17 | `TI.C17_order_matters_for_constants` | propext, Classical.choice, Quot.sound |
| C17 | `TI.C17_order_agreeing` | propext, Classical.choice, Quot.sound |
| C18 | `TI.C18_nothing_to_pad` | propext, Classical.choice, Quot.sound |
| C19 | `TI.C19_loops_terminate` | propext, Classical.choice, Quot.sound |
| C19 | `TI.C19_periodize_terminates` | propext, Classical.choice, Quot.sound |
| C19 | `TI.C19_empty_before_diverges` | propext, Classical.choice, Quot.sound |
| C19 | `TI.C19_empty_after_diverges` | propext, Classical.choice, Quot.sound |
| C19 | `TI.C19_mirror_empty_raises` | propext, Quot.sound |
| C20 | `TI.C20_zeros_returns_junk` | propext, Classical.choice, Quot.sound |
| C20 | `TI.C20_zeros1d_partial` | propext, Classical.choice, Quot.sound |
| C20 | `TI.C20_zeros_false` | propext, Classical.choice, Quot.sound |
| C20 | `TI.C20_zeros_then_other_raises` | propext, Classical.choice, Quot.sound |
| C21 | `TI.C21_right_justified` | propext, Classical.choice, Quot.sound |
| C22 | `TI.C22_pad_axis_extends_partial` | propext, Classical.choice, Quot.sound |
| C22 | `TI.C22_pad_axis_forward_partial` | propext, Classical.choice, Quot.sound |
| C22 | `TI.C22_pad_axis_false` | propext, Classical.choice, Quot.sound |
| C22 | `TI.C22_pad_axis_odd` | propext, Classical.choice, Quot.sound |
| C22 | `TI.C22_pad_axis_iff` | propext, Classical.choice, Quot.sound |
| C23 | `TI.C23_int_is_pair` | propext, Classical.choice, Quot.sound |
| C23 | `TI.C23_singletons_are_pairs` | propext, Classical.choice, Quot.sound |
| C23 | `TI.C23_negative_pair` | propext, Classical.choice, Quot.sound |
| C23 | `TI.C23_negative_in_list` | propext, Classical.choice, Quot.sound |
| C23 | `TI.C23_no_negative_width` | propext, Classical.choice, Quot.sound |
| C24 | `TI.C24_same_padding_size` | propext, Classical.choice, Quot.sound |
| C24 | `TI.C24_same_padding_unit_stride` | propext, Quot.sound |
| C24 | `TI.C24_same_padding_default_stride` | propext, Classical.choice, Quot.sound |
| C24 | `TI.C24_same_padding_needs_size` | propext |
| C25 | `TI.C25_same_padding_covers` | propext, Classical.choice, Quot.sound |
| C25 | `TI.C25_same_padding_minimal` | propext, Classical.choice, Quot.sound |
| C26 | `TI.C26_conv1d` | propext, Classical.choice, Quot.sound |
| C26 | `TI.C26_conv_nd` | propext, Classical.choice, Quot.sound |
| C27 | `TI.C27_numpy_roundtrip` | propext, Quot.sound |
| C27 | `TI.C27_torch_roundtrip` | propext |
| C27 | `TI.C27_axis_order` | propext, Classical.choice, Quot.sound |
| C27 | `TI.C27_needs_ndim` | none |
| C27 | `TI.C27_format` | propext |
| C27 | `TI.C27_checked` | propext, Classical.choice, Quot.sound |
| C27 | `TI.C27_check` | propext, Classical.choice, Quot.sound |
| C28 | `TI.C28_n_original` | propext, Classical.choice, Quot.sound |
| C28 | `TI.C28_no_window` | propext, Classical.choice, Quot.sound |
| C29 | `TI.C29_n_original_nd` | propext, Classical.choice, Quot.sound |
| C29 | `TI.C29_product` | propext, Classical.choice, Quot.sound |
| C30 | `TI.C30_separable_is_correlation` | propext, Classical.choice, Quot.sound |
| C30 | `TI.C30_separable_entries` | propext, Classical.choice, Quot.sound |
| C30 | `TI.C30_constructor` | propext, Classical.choice, Quot.sound |
| C31 | `TI.C31_same_shape` | propext, Classical.choice, Quot.sound |
| C31 | `TI.C31_filter_shape_iff` | propext, Classical.choice, Quot.sound |
| C31 | `TI.C31_valid_shape` | propext, Classical.choice, Quot.sound |
| C31 | `TI.C31_kernel_too_long` | propext, Classical.choice, Quot.sound |
| C31 | `TI.C31_wrong_number_of_axes` | propext, Classical.choice, Quot.sound |
| C31 | `TI.C31_same_shape_partial` | propext, Classical.choice, Quot.sound |
| C31 | `TI.C31_filter_shape_partial` | propext, Classical.choice, Quot.sound |
| C31 | `TI.C31_periodize_false` | propext, Classical.choice, Quot.sound |
| C32 | `TI.C32_axis_order` | propext, Classical.choice, Quot.sound |
| C32 | `TI.C32_permuted_triples` | propext, Classical.choice, Quot.sound |
| C32 | `TI.C32_axis_order_same` | propext, Classical.choice, Quot.sound |
| C32 | `TI.C32_axis_order_uniform` | propext, Classical.choice, Quot.sound |
| C33 | `TI.C33_linear` | propext, Classical.choice, Quot.sound |
| C33 | `TI.C33_linear_same` | propext, Classical.choice, Quot.sound |
| C34 | `TI.C34_gaussian_kernels` | propext, Classical.choice, Quot.sound |
| C34 | `TI.C34_range_valid` | propext, Classical.choice, Quot.sound |
| C34 | `TI.C34_range_same` | propext, Classical.choice, Quot.sound |
| C34 | `TI.C34_constant_same` | propext, Classical.choice, Quot.sound |
| C34 | `TI.C34_constant_valid` | propext, Classical.choice, Quot.sound |
| C34 | `TI.C34_average_kernels` | propext, Classical.choice, Quot.sound |
| C34 | `TI.C34_average_negative` | propext, Quot.sound |
| C35 | `TI.C35_history_irrelevant` | propext, Quot.sound |
| C35 | `TI.C35_history_irrelevant_average` | propext, Quot.sound |
| C35 | `TI.C35_state_after_call` | propext, Quot.sound |
| C36 | `TI.C36_iff` | propext, Classical.choice, Quot.sound |
| C36 | `TI.C36_sorted_axes_partial` | propext, Classical.choice, Quot.sound |
| C36 | `TI.C36_equal_sizes_partial` | propext, Classical.choice, Quot.sound |
| C36 | `TI.C36_no_padder_error` | propext, Classical.choice, Quot.sound |
| C36 | `TI.C36_unsorted_wrong_shape` | propext, Classical.choice, Quot.sound |
| C36 | `TI.C36_unsorted_error` | propext, Classical.choice, Quot.sound |
| C37 | `TI.C37_probability_vector` | propext, Classical.choice, Quot.sound |
| C37 | `TI.C37_entries` | propext, Classical.choice, Quot.sound |
| C37 | `TI.C37_invalid` | propext, Classical.choice, Quot.sound |
| C37 | `TI.C37_zero_sigma` | propext, Classical.choice, Quot.sound |
| C38 | `TI.C38_derivative_samples` | propext, Classical.choice, Quot.sound |
| C38 | `TI.C38_even_sizes` | propext, Classical.choice, Quot.sound |
| C38 | `TI.C38_parity` | propext, Classical.choice, Quot.sound |
| C38 | `TI.C38_odd_order_sum` | propext, Classical.choice, Quot.sound |
| C39 | `TI.C39_empty` | propext, Classical.choice, Quot.sound |
| C39 | `TI.C39_iff` | propext, Classical.choice, Quot.sound |
| C39 | `TI.C39_any_conv_partial` | propext, Classical.choice, Quot.sound |
| C39 | `TI.C39_any_conv_unfold_partial` | propext, Classical.choice, Quot.sound |
| C39 | `TI.C39_bad_axis` | propext, Classical.choice, Quot.sound |
| C39 | `TI.C39_empty_axis_false` | propext, Classical.choice, Quot.sound |
| C40 | `TI.C40_fast_path_partial` | propext, Classical.choice, Quot.sound |
| C40 | `TI.C40_fast_path_same` | propext, Classical.choice, Quot.sound |
| C40 | `TI.C40_fast_path_valid` | propext, Classical.choice, Quot.sound |
| C40 | `TI.C40_short_axis` | propext, Classical.choice, Quot.sound |
| C40 | `TI.C40_short_axis_false` | propext, Classical.choice, Quot.sound |
| C40 | `TI.C40_iff` | propext, Classical.choice, Quot.sound |
| C41 | `TI.C41_kernel_used` | propext, Classical.choice, Quot.sound |
| C41 | `TI.C41_kernel_applied_partial` | propext, Classical.choice, Quot.sound |
| C41 | `TI.C41_integer_kernels` | propext, Classical.choice, Quot.sound |
| C41 | `TI.C41_other_lengths` | propext, Classical.choice, Quot.sound |
| C41 | `TI.C41_truncated_false` | propext, Classical.choice, Quot.sound |
| C41 | `TI.C41_laplacian_of_gaussian_false` | propext, Classical.choice, Quot.sound |
| C41 | `TI.C41_iff` | propext, Classical.choice, Quot.sound |
| C42 | `TI.C42_components` | propext, Classical.choice, Quot.sound |
| C42 | `TI.C42_magnitude` | propext, Classical.choice, Quot.sound |
| C42 | `TI.C42_named` | propext, Classical.choice, Quot.sound |
| C42 | `TI.C42_gaussian_partial` | propext, Classical.choice, Quot.sound |
| C42 | `TI.C42_even_gaussian_false` | propext, Classical.choice, Quot.sound |
| C42 | `TI.C42_iff` | propext, Classical.choice, Quot.sound |
| C43 | `TI.C43_laplace` | propext, Classical.choice, Quot.sound |
| C44 | `TI.C44_normalised` | propext, Classical.choice, Quot.sound |
| C44 | `TI.C44_not_normalised` | propext, Classical.choice, Quot.sound |
| C45 | `TI.C45_formula` | propext, Classical.choice, Quot.sound |
| C45 | `TI.C45_amount_zero` | propext, Classical.choice, Quot.sound |
| C45 | `TI.C45_fixed_by_blur` | propext, Classical.choice, Quot.sound |
| C45 | `TI.C45_threshold_nonpos` | propext, Classical.choice, Quot.sound |
| C45 | `TI.C45_blur_error` | propext, Classical.choice, Quot.sound |
| C45 | `TI.C45_pooling` | propext, Classical.choice, Quot.sound |
| C45 | `TI.C45_flat` | propext, Classical.choice, Quot.sound |
| C46 | `TI.C46_to_4c` | propext, Classical.choice, Quot.sound |
| C46 | `TI.C46_to_1c` | propext, Classical.choice, Quot.sound |
| C46 | `TI.C46_round_trip_1c` | propext, Classical.choice, Quot.sound |
| C46 | `TI.C46_round_trip_4c` | propext, Classical.choice, Quot.sound |
| C46 | `TI.C46_rejects` | propext, Classical.choice, Quot.sound |
| C47 | `TI.C47_four_channels` | propext, Classical.choice, Quot.sound |
| C47 | `TI.C47_entries` | propext, Classical.choice, Quot.sound |
| C48 | `TI.C48_mosaic` | propext, Classical.choice, Quot.sound |
| C48 | `TI.C48_rejects` | propext, Classical.choice, Quot.sound |
| C49 | `TI.C49_assembly` | propext, Classical.choice, Quot.sound |
| C49 | `TI.C49_remosaic` | propext, Classical.choice, Quot.sound |
| C50 | `TI.C50_four_channels` | propext, Classical.choice, Quot.sound |
| C50 | `TI.C50_rejects` | propext, Classical.choice, Quot.sound |
| C50 | `TI.C50_one_channel` | propext, Classical.choice, Quot.sound |
| C50 | `TI.C50_constant_color` | propext, Classical.choice, Quot.sound |
| C51 | `TI.C51_accepts` | propext, Classical.choice, Quot.sound |
| C51 | `TI.C51_rejects` | propext, Classical.choice, Quot.sound |
| C51 | `TI.C51_idempotent` | propext, Classical.choice, Quot.sound |
| C51 | `TI.C51_cells` | propext, Quot.sound |
| C52 | `TI.C52_centred_partial` | propext, Classical.choice, Quot.sound |
| C52 | `TI.C52_odd_side` | propext, Classical.choice, Quot.sound |
| C52 | `TI.C52_rejects` | propext, Classical.choice, Quot.sound |
| C52 | `TI.C52_side_three_witness` | propext, Classical.choice, Quot.sound |
| C52 | `TI.C52_outcome` | propext, Classical.choice, Quot.sound |
| C53 | `TI.C53_odd_witness` | propext, Classical.choice, Quot.sound |
| C53 | `TI.C53_unshuffle_partial` | propext, Classical.choice, Quot.sound |
| C53 | `TI.C53_outcome` | propext, Classical.choice, Quot.sound |
| C53 | `TI.C53_iff` | propext, Classical.choice, Quot.sound |
| C54 | `TI.C54_formula` | propext, Classical.choice, Quot.sound |
| C54 | `TI.C54_rejects` | propext, Classical.choice, Quot.sound |
| C54 | `TI.C54_range` | propext, Classical.choice, Quot.sound |
| C54 | `TI.C54_flat` | propext, Classical.choice, Quot.sound |
| C55 | `TI.C55_mean` | propext, Classical.choice, Quot.sound |
| C55 | `TI.C55_sum` | propext, Classical.choice, Quot.sound |
| C55 | `TI.C55_none` | propext, Classical.choice, Quot.sound |
| C55 | `TI.C55_rejects_shapes` | propext, Quot.sound |
| C55 | `TI.C55_rejects_reduction` | propext, Classical.choice, Quot.sound |
| C55 | `TI.C55_rejects_repeated` | propext, Classical.choice, Quot.sound |
| C55 | `TI.C55_symmetric` | propext, Classical.choice, Quot.sound |
| C55 | `TI.C55_total` | propext, Classical.choice, Quot.sound |
| C55 | `TI.C55_sum_is_mean_times_count` | propext, Classical.choice, Quot.sound |
| C55 | `TI.C55_nonneg` | propext, Classical.choice, Quot.sound |
| C55 | `TI.C55_zero_iff` | propext, Classical.choice, Quot.sound |
| C56 | `TI.C56_formula` | propext, Classical.choice, Quot.sound |
| C56 | `TI.C56_symmetric` | propext, Classical.choice, Quot.sound |
| C56 | `TI.C56_decreasing` | propext, Classical.choice, Quot.sound |
| C56 | `TI.C56_scale` | propext, Classical.choice, Quot.sound |
| C57 | `TI.C57_symmetric` | propext, Classical.choice, Quot.sound |
| C57 | `TI.C57_rejects_shapes` | propext, Quot.sound |
| C58 | `TI.C58_self_partial` | propext, Classical.choice, Quot.sound |
| C58 | `TI.C58_cropped_partial` | propext, Classical.choice, Quot.sound |
| C58 | `TI.C58_map_any_padding_partial` | propext, Classical.choice, Quot.sound |
| C58 | `TI.C58_gaussian` | propext, Classical.choice, Quot.sound |
| C58 | `TI.C58_mean` | propext, Classical.choice, Quot.sound |
| C58 | `TI.C58_padding_false` | propext, Classical.choice, Quot.sound |
| C58 | `TI.C58_exclude_partial` | propext, Classical.choice, Quot.sound |
| C58 | `TI.C58_exclude_cropped_partial` | propext, Classical.choice, Quot.sound |
| C59 | `TI.C59_bounds_partial` | propext, Classical.choice, Quot.sound |
| C59 | `TI.C59_cropped_partial` | propext, Classical.choice, Quot.sound |
| C59 | `TI.C59_gaussian` | propext, Classical.choice, Quot.sound |
| C59 | `TI.C59_mean` | propext, Classical.choice, Quot.sound |
| C59 | `TI.C59_padding_false` | propext, Classical.choice, Quot.sound |
| C59 | `TI.C59_exclude_partial` | propext, Classical.choice, Quot.sound |
| C59 | `TI.C59_exclude_cropped_partial` | propext, Classical.choice, Quot.sound |
| C60 | `TI.C60_cropped_score_partial` | propext, Classical.choice, Quot.sound |
| C60 | `TI.C60_padding_irrelevant_partial` | propext, Classical.choice, Quot.sound |
| C60 | `TI.C60_periodize_false` | propext, Classical.choice, Quot.sound |
| C60 | `TI.C60_exclude_partial` | propext, Classical.choice, Quot.sound |
| C61 | `TI.C61_cropped_self` | propext, Classical.choice, Quot.sound |
| C61 | `TI.C61_cropped_range` | propext, Classical.choice, Quot.sound |
| C61 | `TI.C61_exclude_self` | propext, Classical.choice, Quot.sound |
| C61 | `TI.C61_exclude_range` | propext, Classical.choice, Quot.sound |
| C61 | `TI.C61_padding_false` | propext, Classical.choice, Quot.sound |
| C61 | `TI.C61_symmetric` | propext, Classical.choice, Quot.sound |
| C61 | `TI.C61_rejects_shapes` | propext, Classical.choice, Quot.sound |
| C61 | `TI.C61_self_partial` | propext, Classical.choice, Quot.sound |
| C61 | `TI.C61_self_sum_partial` | propext, Classical.choice, Quot.sound |
| C61 | `TI.C61_range_partial` | propext, Classical.choice, Quot.sound |
| C61 | `TI.C61_range_sum_partial` | propext, Classical.choice, Quot.sound |
| C61 | `TI.C61_gaussian` | propext, Classical.choice, Quot.sound |
| C62 | `TI.C62_accepts_partial` | propext, Classical.choice, Quot.sound |
| C62 | `TI.C62_single_weight` | propext, Classical.choice, Quot.sound |
| C62 | `TI.C62_gaussian_false` | propext, Classical.choice, Quot.sound |
| C63 | `TI.C63_poly1d` | propext, Classical.choice, Quot.sound |
| C63 | `TI.C63_empty` | propext, Quot.sound |
| C64 | `TI.C64_constant_false` | propext, Quot.sound |
| C64 | `TI.C64_constant_partial` | propext, Classical.choice, Quot.sound |
| C65 | `TI.C65_safe_power` | propext, Classical.choice, Quot.sound |
| C65 | `TI.C65_rejects_shapes` | propext, Classical.choice, Quot.sound |
| C65 | `TI.C65_sign` | propext, Classical.choice, Quot.sound |
| C65 | `TI.C65_negative_epsilon` | propext, Classical.choice, Quot.sound |
| C66 | `TI.C66_outer` | propext, Classical.choice, Quot.sound |
| C66 | `TI.C66_outer_assoc` | propext, Classical.choice, Quot.sound |
| C67 | `TI.C67_random_crop` | propext, Classical.choice, Quot.sound |
| C68 | `TI.C68_iff` | propext, Classical.choice, Quot.sound |
| C68 | `TI.C68_reaches_partial` | propext, Classical.choice, Quot.sound |
| C68 | `TI.C68_full_size_false` | propext, Classical.choice, Quot.sound |
| C68 | `TI.C68_last_window_false` | propext, Classical.choice, Quot.sound |
| C69 | `TI.C69_single_item` | propext, Classical.choice, Quot.sound |
| C69 | `TI.C69_scalar_pair` | propext, Quot.sound |
| C69 | `TI.C69_scalar` | propext |
| C70 | `TI.C70_list_of_items` | propext, Classical.choice, Quot.sound |
| C71 | `TI.C71_ragged_shape_partial` | propext, Classical.choice, Quot.sound |
| C71 | `TI.C71_strict_data` | propext |
| C71 | `TI.C71_min_depth_false` | propext, Quot.sound |
| C71 | `TI.C71_nonstrict_false` | propext, Classical.choice, Quot.sound |
| C71 | `TI.C71_nonstrict_partial` | propext, Classical.choice, Quot.sound |
| C72 | `TI.C72_expand` | propext, Classical.choice, Quot.sound |
| C72 | `TI.C72_expand_shorter` | propext, Classical.choice, Quot.sound |
| C72 | `TI.C72_incompatible` | propext, Classical.choice, Quot.sound |
| C72 | `TI.C72_zero_length` | propext, Classical.choice, Quot.sound |
| C72 | `TI.C72_empty` | propext, Classical.choice, Quot.sound |
| C73 | `TI.C73_map` | propext, Classical.choice, Quot.sound |
| C73 | `TI.C73_apply` | propext, Classical.choice, Quot.sound |
| C73 | `TI.C73_apply_raises` | propext, Classical.choice, Quot.sound |
| C73 | `TI.C73_zip` | propext, Classical.choice, Quot.sound |
| C73 | `TI.C73_incompatible` | propext, Classical.choice, Quot.sound |
| C73 | `TI.C73_agg_incompatible` | propext, Quot.sound |
| C73 | `TI.C73_index_shape` | propext, Classical.choice, Quot.sound |
| C73 | `TI.C73_index_axes` | propext, Quot.sound |
| C73 | `TI.C73_agg_len` | propext, Classical.choice, Quot.sound |
| C73 | `TI.C73_nested_rejected` | propext, Quot.sound |
| C74 | `TI.C74_valid_partial` | propext, Classical.choice, Quot.sound |
| C74 | `TI.C74_slice` | propext, Classical.choice, Quot.sound |
| C74 | `TI.C74_sequence_rejects_partial` | propext, Quot.sound |
| C74 | `TI.C74_int_false` | none |
| C74 | `TI.C74_sequence_false` | none |
| C74 | `TI.C74_outcome` | propext, Classical.choice, Quot.sound |
| C74 | `TI.C74_crop_wraps` | propext, Quot.sound |
| C75 | `TI.C75_components` | propext, Classical.choice, Quot.sound |
| C75 | `TI.C75_horizontal_vertical` | propext, Classical.choice, Quot.sound |
| C75 | `TI.C75_magnitude` | propext, Classical.choice, Quot.sound |
| C75 | `TI.C75_zero_power` | propext, Classical.choice, Quot.sound |
| C75 | `TI.C75_one_axis` | propext, Classical.choice, Quot.sound |
| C76 | `TI.C76_constant_response` | propext, Classical.choice, Quot.sound |
| C76 | `TI.C76_laplacian_of_gaussian` | propext, Classical.choice, Quot.sound |
| C77 | `TI.C77_constant_color` | propext, Classical.choice, Quot.sound |
| C78 | `TI.C78_affine` | propext, Classical.choice, Quot.sound |
| C79 | `TI.C79_formula` | propext, Classical.choice, Quot.sound |
| C79 | `TI.C79_windows` | propext, Classical.choice, Quot.sound |
| C79 | `TI.C79_exclude` | propext, Classical.choice, Quot.sound |
| C80 | `TI.C80_cropped` | propext, Classical.choice, Quot.sound |
| C80 | `TI.C80_padding_irrelevant` | propext, Classical.choice, Quot.sound |
| C80 | `TI.C80_exclude` | propext, Classical.choice, Quot.sound |
| C80 | `TI.C80_formula` | propext, Classical.choice, Quot.sound |
| C80 | `TI.C80_rejects_small` | propext, Classical.choice, Quot.sound |
| C80 | `TI.C80_no_weights` | propext, Classical.choice, Quot.sound |
| C81 | `TI.C81_truncates_exponent` | propext, Classical.choice, Quot.sound |
| C81 | `TI.C81_truncates_base` | propext, Classical.choice, Quot.sound |
| C81 | `TI.C81_integers_partial` | propext, Classical.choice, Quot.sound |
| C81 | `TI.C81_zero_raises` | propext, Classical.choice, Quot.sound |
| C81 | `TI.C81_negative_exponent` | propext, Classical.choice, Quot.sound |
| C81 | `TI.C81_root_of_four_false` | propext, Classical.choice, Quot.sound |
| C81 | `TI.C81_half_false` | propext, Classical.choice, Quot.sound |
| C82 | `TI.C82_gauss` | propext, Classical.choice, Quot.sound |
| C82 | `TI.C82_gauss_zero` | propext, Classical.choice, Quot.sound |
| C82 | `TI.C82_poisson_gauss` | propext, Classical.choice, Quot.sound |
| C82 | `TI.C82_poisson_zero` | propext, Classical.choice, Quot.sound |
| C82 | `TI.C82_poisson_rejects` | propext, Classical.choice, Quot.sound |
| C83 | `TI.C83_describe` | propext, Classical.choice, Quot.sound |
| C83 | `TI.C83_empty` | propext, Classical.choice, Quot.sound |
| C83 | `TI.C83_ordered` | propext, Classical.choice, Quot.sound |
| C83 | `TI.C83_permutation` | propext, Classical.choice, Quot.sound |
| C84 | `TI.C84_geometry` | propext, Classical.choice, Quot.sound |
| C84 | `TI.C84_scaling` | propext, Classical.choice, Quot.sound |
| C84 | `TI.C84_distance` | propext, Classical.choice, Quot.sound |
| C84 | `TI.C84_zero` | propext, Classical.choice, Quot.sound |
| C84 | `TI.C84_hdrvdp3` | propext |
| C85 | `TI.C85_edge_loss` | propext, Classical.choice, Quot.sound |
| C85 | `TI.C85_weighted_mul` | propext, Classical.choice, Quot.sound |
| C85 | `TI.C85_weighted_sum` | propext, Classical.choice, Quot.sound |
| C85 | `TI.C85_distance` | propext, Classical.choice, Quot.sound |
| C85 | `TI.C85_zero_iff` | propext, Classical.choice, Quot.sound |
| C85 | `TI.C85_triangle` | propext, Classical.choice, Quot.sound |
| C85 | `TI.C85_weighted_div` | propext, Classical.choice, Quot.sound |
| C85 | `TI.C85_weighted_div_zero` | propext, Classical.choice, Quot.sound |
| C85 | `TI.C85_init` | propext, Classical.choice, Quot.sound |
| C86 | `TI.C86_odd_order` | propext, Classical.choice, Quot.sound |
| C86 | `TI.C86_negative_false` | propext, Classical.choice, Quot.sound |
| C86 | `TI.C86_constant_truth` | propext, Classical.choice, Quot.sound |
| C86 | `TI.C86_nonneg_partial` | propext, Classical.choice, Quot.sound |
| C87 | `TI.C87_pair_is_same_padding` | propext, Quot.sound |
| C87 | `TI.C87_pair_splits` | propext, Classical.choice, Quot.sound |
| C88 | `TI.C88_exclude` | propext, Classical.choice, Quot.sound |
| C88 | `TI.C88_one_iff_equal` | propext, Classical.choice, Quot.sound |
| C88 | `TI.C88_cropped` | propext, Classical.choice, Quot.sound |
| C88 | `TI.C88_gaussian` | propext, Classical.choice, Quot.sound |
| C88 | `TI.C88_mean` | propext, Classical.choice, Quot.sound |
| C89 | `TI.C89_forward` | propext, Classical.choice, Quot.sound |
| C89 | `TI.C89_entries` | propext, Classical.choice, Quot.sound |
| C89 | `TI.C89_interior` | propext, Classical.choice, Quot.sound |
| C89 | `TI.C89_deterministic_part` | propext, Classical.choice, Quot.sound |
| C89 | `TI.C89_type_error` | propext, Classical.choice, Quot.sound |
| C90 | `TI.C90_twice` | propext, Classical.choice, Quot.sound |
| C90 | `TI.C90_constructor` | propext, Classical.choice, Quot.sound |
| C90 | `TI.C90_averages` | propext, Classical.choice, Quot.sound |
| C90 | `TI.C90_levels` | propext, Classical.choice, Quot.sound |
| C90 | `TI.C90_built` | propext, Classical.choice, Quot.sound |
| C91 | `TI.C91_mirrored_partial` | propext, Classical.choice, Quot.sound |
| C91 | `TI.C91_symmetric_partial` | propext, Classical.choice, Quot.sound |
| C91 | `TI.C91_periodize_false` | propext, Classical.choice, Quot.sound |
| C91 | `TI.C91_periodize_iff` | propext, Classical.choice, Quot.sound |
| C92 | `TI.C92_reversed` | propext, Classical.choice, Quot.sound |
| C92 | `TI.C92_same` | propext, Classical.choice, Quot.sound |
| C92 | `TI.C92_odd` | propext, Classical.choice, Quot.sound |
| C93 | `TI.C93_mse` | propext, Classical.choice, Quot.sound |
| C93 | `TI.C93_ssim` | propext, Classical.choice, Quot.sound |
| C93 | `TI.C93_ssim_cropped` | propext, Classical.choice, Quot.sound |
| C93 | `TI.C93_psnr` | propext, Classical.choice, Quot.sound |
| C93 | `TI.C93_msssim_partial` | propext, Classical.choice, Quot.sound |
| C93 | `TI.C93_gaussian` | propext, Classical.choice, Quot.sound |
| C93 | `TI.C93_even_false` | propext, Classical.choice, Quot.sound |
| C93 | `TI.C93_downsample_odd_false` | propext, Classical.choice, Quot.sound |
| C94 | `TI.C94_pad` | propext, Classical.choice, Quot.sound |
| C94 | `TI.C94_pool` | propext, Classical.choice, Quot.sound |
| C94 | `TI.C94_pool_same` | propext, Classical.choice, Quot.sound |
| C94 | `TI.C94_edges` | propext, Classical.choice, Quot.sound |
| C94 | `TI.C94_mse` | propext, Classical.choice, Quot.sound |
| C94 | `TI.C94_ssim` | propext, Classical.choice, Quot.sound |
| C94 | `TI.C94_psnr` | propext, Classical.choice, Quot.sound |
| C94 | `TI.C94_msssim` | propext, Classical.choice, Quot.sound |
| C95 | `TI.C95_pad` | propext, Classical.choice, Quot.sound |
| C95 | `TI.C95_pool` | propext, Classical.choice, Quot.sound |
| C95 | `TI.C95_pool_same` | propext, Classical.choice, Quot.sound |
| C95 | `TI.C95_pool_uniform` | propext, Classical.choice, Quot.sound |
| C95 | `TI.C95_edges` | propext, Classical.choice, Quot.sound |
| C95 | `TI.C95_mse` | propext, Classical.choice, Quot.sound |
| C95 | `TI.C95_ssim` | propext, Classical.choice, Quot.sound |
| C95 | `TI.C95_msssim` | propext, Classical.choice, Quot.sound |
| C96 | `TI.C96_pad` | propext, Classical.choice, Quot.sound |
| C96 | `TI.C96_pad_copy` | propext, Classical.choice, Quot.sound |
| C96 | `TI.C96_pool` | propext, Classical.choice, Quot.sound |
| C96 | `TI.C96_pool_same` | propext, Classical.choice, Quot.sound |
| C96 | `TI.C96_mse` | propext, Classical.choice, Quot.sound |
| C96 | `TI.C96_ssim` | propext, Classical.choice, Quot.sound |
| C96 | `TI.C96_msssim` | propext, Classical.choice, Quot.sound |
| C97 | `TI.C97_interior` | propext, Classical.choice, Quot.sound |
| C97 | `TI.C97_local` | propext, Classical.choice, Quot.sound |
| C97 | `TI.C97_formula` | propext, Classical.choice, Quot.sound |
| C98 | `TI.C98_interior` | propext, Classical.choice, Quot.sound |
| C98 | `TI.C98_straight` | propext, Classical.choice, Quot.sound |
| C98 | `TI.C98_symmetric_interior` | propext, Classical.choice, Quot.sound |
| C98 | `TI.C98_symmetric_straight` | propext, Classical.choice, Quot.sound |
| C98 | `TI.C98_unsharp` | propext, Classical.choice, Quot.sound |
| C98 | `TI.C98_box_kernels` | propext, Classical.choice, Quot.sound |
| C98 | `TI.C98_gaussian_kernels` | propext, Classical.choice, Quot.sound |
| C98 | `TI.C98_gaussian_blur` | propext, Classical.choice, Quot.sound |
| C99 | `TI.C99_components` | propext, Classical.choice, Quot.sound |
| C99 | `TI.C99_magnitude` | propext, Classical.choice, Quot.sound |
| C99 | `TI.C99_straight` | propext, Classical.choice, Quot.sound |
| C99 | `TI.C99_kernels` | propext, Classical.choice, Quot.sound |
| C99 | `TI.C99_gain` | propext, Classical.choice, Quot.sound |
| C99 | `TI.C99_named` | propext, Classical.choice, Quot.sound |
| C99 | `TI.C99_laplace` | propext, Classical.choice, Quot.sound |
| C99 | `TI.C99_gaussian_moment` | propext, Classical.choice, Quot.sound |
| C99 | `TI.C99_gaussian` | propext, Classical.choice, Quot.sound |
| C100 | `TI.C100_callable` | propext, Classical.choice, Quot.sound |
| C100 | `TI.C100_shape_samples` | propext, Classical.choice, Quot.sound |
| C100 | `TI.C100_every_rule` | propext, Classical.choice, Quot.sound |
| C100 | `TI.C100_library_rules` | propext, Classical.choice, Quot.sound |
| C100 | `TI.C100_names` | propext, Quot.sound |
| C100 | `TI.C100_periodize_false` | propext, Classical.choice, Quot.sound |
| C101 | `TI.C101_pad` | propext, Classical.choice, Quot.sound |
| C101 | `TI.C101_pad_close` | propext, Classical.choice, Quot.sound |
| C101 | `TI.C101_pool` | propext, Classical.choice, Quot.sound |
| C101 | `TI.C101_pool_same` | propext, Classical.choice, Quot.sound |
| C101 | `TI.C101_filter_close` | propext, Classical.choice, Quot.sound |
| C102 | `TI.C102_shape` | propext, Classical.choice, Quot.sound |
| C102 | `TI.C102_spec` | propext, Classical.choice, Quot.sound |
| C102 | `TI.C102_spec_index` | propext, Classical.choice, Quot.sound |
| C102 | `TI.C102_items` | propext, Classical.choice, Quot.sound |
| C102 | `TI.C102_zero_target` | propext, Classical.choice, Quot.sound |
| C102 | `TI.C102_empty_array` | propext |
| C103 | `TI.C103_axiswise` | propext, Classical.choice, Quot.sound |
| C103 | `TI.C103_split` | propext, Classical.choice, Quot.sound |
| C103 | `TI.C103_uniform` | propext, Classical.choice, Quot.sound |
| C103 | `TI.C103_hypotheses` | propext, Classical.choice, Quot.sound |
| C104 | `TI.C104_roll` | propext, Classical.choice, Quot.sound |
| C104 | `TI.C104_mass` | propext, Classical.choice, Quot.sound |
| C104 | `TI.C104_mse` | propext, Classical.choice, Quot.sound |
| C104 | `TI.C104_ssim` | propext, Classical.choice, Quot.sound |
| C105 | `TI.C105_two_steps` | propext, Classical.choice, Quot.sound |
| C105 | `TI.C105_circular_steps_differ` | propext, Classical.choice, Quot.sound |
| C105 | `TI.C105_constants_steps_differ` | propext, Classical.choice, Quot.sound |
| C106 | `TI.C106_narrower` | propext, Classical.choice, Quot.sound |
| C106 | `TI.C106_ramps_differ` | propext, Classical.choice, Quot.sound |
| C107 | `TI.C107_swapped` | propext, Classical.choice, Quot.sound |
| C107 | `TI.C107_mirrored` | propext, Classical.choice, Quot.sound |
| C107 | `TI.C107_upturned` | propext, Classical.choice, Quot.sound |
| C107 | `TI.C107_transposed` | propext, Classical.choice, Quot.sound |
| C107 | `TI.C107_scaled` | propext, Classical.choice, Quot.sound |
| C107 | `TI.C107_part` | propext, Classical.choice, Quot.sound |
| C108 | `TI.C108_stable` | propext, Classical.choice, Quot.sound |
| C108 | `TI.C108_local` | propext, Classical.choice, Quot.sound |
| C109 | `TI.C109_one_iff_equal` | propext, Classical.choice, Quot.sound |
| C109 | `TI.C109_sum` | propext, Classical.choice, Quot.sound |
| C109 | `TI.C109_gaussian` | propext, Classical.choice, Quot.sound |
| C109 | `TI.C109_single_entry` | propext, Classical.choice, Quot.sound |
| C109 | `TI.C109_single_entry_false` | propext, Classical.choice, Quot.sound |
| C110 | `TI.C110_shifted` | propext, Classical.choice, Quot.sound |
| C110 | `TI.C110_brighter` | propext, Classical.choice, Quot.sound |
| C110 | `TI.C110_constant` | propext, Classical.choice, Quot.sound |
| C110 | `TI.C110_mse` | propext, Classical.choice, Quot.sound |
| C110 | `TI.C110_psnr` | propext, Classical.choice, Quot.sound |
| C110 | `TI.C110_ms_constant` | propext, Classical.choice, Quot.sound |
| C110 | `TI.C110_ms_constant_sum` | propext, Classical.choice, Quot.sound |
| C110 | `TI.C110_ms_shifted` | propext, Classical.choice, Quot.sound |
| C110 | `TI.C110_gaussian` | propext, Classical.choice, Quot.sound |
| C111 | `TI.C111_mirrored` | propext, Classical.choice, Quot.sound |
| C111 | `TI.C111_magnitude_mirrored` | propext, Classical.choice, Quot.sound |
| C111 | `TI.C111_kernels` | propext, Classical.choice, Quot.sound |
| C111 | `TI.C111_named` | propext, Classical.choice, Quot.sound |
| C111 | `TI.C111_laplace` | propext, Classical.choice, Quot.sound |
| C111 | `TI.C111_rolled` | propext, Classical.choice, Quot.sound |
| C111 | `TI.C111_magnitude_rolled` | propext, Classical.choice, Quot.sound |
| C111 | `TI.C111_grey` | propext, Classical.choice, Quot.sound |
| C111 | `TI.C111_magnitude_grey` | propext, Classical.choice, Quot.sound |
| C111 | `TI.C111_gaussian` | propext, Classical.choice, Quot.sound |
| C112 | `TI.C112_mirrored` | propext, Classical.choice, Quot.sound |
| C112 | `TI.C112_rolled` | propext, Classical.choice, Quot.sound |
| C112 | `TI.C112_transposed` | propext, Classical.choice, Quot.sound |
| C112 | `TI.C112_batch` | propext, Classical.choice, Quot.sound |
| C112 | `TI.C112_grey` | propext, Classical.choice, Quot.sound |
| C112 | `TI.C112_amount` | propext, Classical.choice, Quot.sound |
| C112 | `TI.C112_blur` | propext, Classical.choice, Quot.sound |
| C112 | `TI.C112_change` | propext, Classical.choice, Quot.sound |
| C112 | `TI.C112_overshoot` | propext, Classical.choice, Quot.sound |
| C112 | `TI.C112_mass` | propext, Classical.choice, Quot.sound |
| C113 | `TI.C113_pad` | propext, Classical.choice, Quot.sound |
| C113 | `TI.C113_pool` | propext, Classical.choice, Quot.sound |
| C113 | `TI.C113_small_kernels` | propext, Classical.choice, Quot.sound |
| C113 | `TI.C113_edges` | propext, Classical.choice, Quot.sound |
| C113 | `TI.C113_conditions` | propext, Classical.choice, Quot.sound |
| C113 | `TI.C113_conditions_ramp` | propext, Classical.choice, Quot.sound |
| C114 | `TI.C114_pool_close` | propext, Classical.choice, Quot.sound |
| C114 | `TI.C114_components_linear` | propext, Classical.choice, Quot.sound |
| C114 | `TI.C114_components_close` | propext, Classical.choice, Quot.sound |
| C114 | `TI.C114_difference` | propext, Classical.choice, Quot.sound |
| C114 | `TI.C114_lipschitz` | propext, Classical.choice, Quot.sound |
| C114 | `TI.C114_sum_le` | propext, Classical.choice, Quot.sound |
| C114 | `TI.C114_grey` | propext, Classical.choice, Quot.sound |
| C114 | `TI.C114_mirrored` | propext, Classical.choice, Quot.sound |
| C114 | `TI.C114_transposed` | propext, Classical.choice, Quot.sound |
| C114 | `TI.C114_mirrored_mul` | propext, Classical.choice, Quot.sound |
| C114 | `TI.C114_grey_div` | propext, Classical.choice, Quot.sound |
| C114 | `TI.C114_gaussian` | propext, Classical.choice, Quot.sound |
| C115 | `TI.C115_border` | propext, Classical.choice, Quot.sound |
| C115 | `TI.C115_corner` | propext, Classical.choice, Quot.sound |
| C115 | `TI.C115_kernels` | propext, Classical.choice, Quot.sound |
| C115 | `TI.C115_weighted_div` | propext, Classical.choice, Quot.sound |
| C115 | `TI.C115_conditions` | propext, Classical.choice, Quot.sound |
| C116 | `TI.C116_mse` | propext, Classical.choice, Quot.sound |
| C116 | `TI.C116_ssim` | propext, Classical.choice, Quot.sound |
| C116 | `TI.C116_ssim_cropped` | propext, Classical.choice, Quot.sound |
| C116 | `TI.C116_edge_loss` | propext, Classical.choice, Quot.sound |
| C116 | `TI.C116_weighted_mul` | propext, Classical.choice, Quot.sound |
| C116 | `TI.C116_weighted_sum` | propext, Classical.choice, Quot.sound |
| C116 | `TI.C116_weighted_div` | propext, Classical.choice, Quot.sound |
| C116 | `TI.C116_msssim` | propext, Classical.choice, Quot.sound |
| C116 | `TI.C116_psnr` | propext, Classical.choice, Quot.sound |
| C117 | `TI.C117_mixture` | propext, Classical.choice, Quot.sound |
| C117 | `TI.C117_convex` | propext, Classical.choice, Quot.sound |
| C117 | `TI.C117_bias` | propext, Classical.choice, Quot.sound |
| C117 | `TI.C117_best_constant` | propext, Classical.choice, Quot.sound |
| C117 | `TI.C117_bounds` | propext, Classical.choice, Quot.sound |
| C117 | `TI.C117_triangle` | propext, Classical.choice, Quot.sound |
| C117 | `TI.C117_psnr_close` | propext, Classical.choice, Quot.sound |
| C117 | `TI.C117_psnr_mixture` | propext, Classical.choice, Quot.sound |
| C118 | `TI.C118_total` | propext, Classical.choice, Quot.sound |
| C118 | `TI.C118_mean` | propext, Classical.choice, Quot.sound |
| C118 | `TI.C118_energy` | propext, Classical.choice, Quot.sound |
| C118 | `TI.C118_mse` | propext, Classical.choice, Quot.sound |
| C118 | `TI.C118_average` | propext, Classical.choice, Quot.sound |
| C118 | `TI.C118_psnr` | propext, Classical.choice, Quot.sound |
| C118 | `TI.C118_gaussian` | propext, Classical.choice, Quot.sound |
| C118 | `TI.C118_total_conditions` | propext, Classical.choice, Quot.sound |
| C118 | `TI.C118_average_conditions` | propext, Classical.choice, Quot.sound |
| C119 | `TI.C119_valid` | propext, Classical.choice, Quot.sound |
| C119 | `TI.C119_same` | propext, Classical.choice, Quot.sound |
| C119 | `TI.C119_blocks` | propext, Classical.choice, Quot.sound |
| C119 | `TI.C119_downsample` | propext, Classical.choice, Quot.sound |
| C119 | `TI.C119_ramps_differ` | propext, Classical.choice, Quot.sound |
| C119 | `TI.C119_blocks_conditions` | propext, Classical.choice, Quot.sound |
| C120 | `TI.C120_ratio` | propext, Classical.choice, Quot.sound |
| C120 | `TI.C120_unimodal` | propext, Classical.choice, Quot.sound |
| C120 | `TI.C120_logconcave` | propext, Classical.choice, Quot.sound |
| C120 | `TI.C120_sigma_sign` | propext, Classical.choice, Quot.sound |
| C120 | `TI.C120_single` | propext, Classical.choice, Quot.sound |
| C120 | `TI.C120_wider` | propext, Classical.choice, Quot.sound |
| C120 | `TI.C120_limit_average` | propext, Classical.choice, Quot.sound |
| C120 | `TI.C120_limit_identity` | propext, Classical.choice, Quot.sound |
| C120 | `TI.C120_first_order` | propext, Classical.choice, Quot.sound |
| C120 | `TI.C120_recursion` | propext, Classical.choice, Quot.sound |
| C121 | `TI.C121_affine` | propext, Classical.choice, Quot.sound |
| C121 | `TI.C121_negative` | propext, Classical.choice, Quot.sound |
| C121 | `TI.C121_constant` | propext, Classical.choice, Quot.sound |
| C121 | `TI.C121_std_zero` | propext, Classical.choice, Quot.sound |
| C121 | `TI.C121_monotone` | propext, Classical.choice, Quot.sound |
| C121 | `TI.C121_std_range` | propext, Classical.choice, Quot.sound |
| C122 | `TI.C122_entries` | propext, Classical.choice, Quot.sound |
| C122 | `TI.C122_odd` | propext, Classical.choice, Quot.sound |
| C122 | `TI.C122_order_partial` | propext, Classical.choice, Quot.sound |
| C122 | `TI.C122_zero_order` | propext, Classical.choice, Quot.sound |
| C122 | `TI.C122_order_false` | propext, Classical.choice, Quot.sound |
| C122 | `TI.C122_product` | propext, Classical.choice, Quot.sound |
| C122 | `TI.C122_inverse` | propext, Classical.choice, Quot.sound |
| C122 | `TI.C122_exponents` | propext, Classical.choice, Quot.sound |
| C123 | `TI.C123_outer_sum` | propext, Classical.choice, Quot.sound |
| C123 | `TI.C123_outer_linear` | propext, Classical.choice, Quot.sound |
| C123 | `TI.C123_outer_linear_right` | propext, Classical.choice, Quot.sound |
| C123 | `TI.C123_horner` | propext, Classical.choice, Quot.sound |
| C123 | `TI.C123_leading_zeros` | propext, Classical.choice, Quot.sound |
| C123 | `TI.C123_linear` | propext, Classical.choice, Quot.sound |
| C123 | `TI.C123_step` | propext, Classical.choice, Quot.sound |
| C123 | `TI.C123_root` | propext, Classical.choice, Quot.sound |
| C124 | `TI.C124_eigen` | propext, Classical.choice, Quot.sound |
| C124 | `TI.C124_response` | propext, Classical.choice, Quot.sound |
| C124 | `TI.C124_modes` | propext, Classical.choice, Quot.sound |
| C124 | `TI.C124_wave` | propext, Classical.choice, Quot.sound |
| C124 | `TI.C124_phase` | propext, Classical.choice, Quot.sound |
| C124 | `TI.C124_parity` | propext, Classical.choice, Quot.sound |
| C124 | `TI.C124_bound` | propext, Classical.choice, Quot.sound |
| C124 | `TI.C124_damped` | propext, Classical.choice, Quot.sound |
| C124 | `TI.C124_box` | propext, Classical.choice, Quot.sound |
| C124 | `TI.C124_box_zero` | propext, Classical.choice, Quot.sound |
| C124 | `TI.C124_sharpen` | propext, Classical.choice, Quot.sound |
| C125 | `TI.C125_apply` | propext, Classical.choice, Quot.sound |
| C125 | `TI.C125_zip` | propext, Classical.choice, Quot.sound |
| C125 | `TI.C125_map` | propext, Classical.choice, Quot.sound |
| C125 | `TI.C125_ragged` | propext, Classical.choice, Quot.sound |
| C125 | `TI.C125_different` | propext, Quot.sound |
| C125 | `TI.C125_construct` | propext, Classical.choice, Quot.sound |
| C125 | `TI.C125_depth_conditions` | propext, Classical.choice, Quot.sound |
| C126 | `TI.C126_stride` | propext, Classical.choice, Quot.sound |
| C126 | `TI.C126_stride_average` | propext, Classical.choice, Quot.sound |
| C126 | `TI.C126_pad_scalar` | propext, Quot.sound |
| C126 | `TI.C126_pad_axis` | propext, Classical.choice, Quot.sound |
| C126 | `TI.C126_unknown_mode_axis` | propext, Classical.choice, Quot.sound |
| C126 | `TI.C126_unknown_mode` | propext, Classical.choice, Quot.sound |
| C126 | `TI.C126_any_conv` | propext, Classical.choice, Quot.sound |
| C126 | `TI.C126_pool_axis` | propext, Quot.sound |
| C126 | `TI.C126_pool_ndim` | propext, Classical.choice, Quot.sound |
| C126 | `TI.C126_pool_wraps` | propext, Classical.choice, Quot.sound |
| C126 | `TI.C126_exclude_repeated` | propext, Classical.choice, Quot.sound |
| C126 | `TI.C126_zero_stride` | propext |
| C126 | `TI.C126_check_padding` | propext, Classical.choice, Quot.sound |
| C126 | `TI.C126_edge_kernels` | propext, Classical.choice, Quot.sound |
| C126 | `TI.C126_component` | propext, Classical.choice, Quot.sound |
| C126 | `TI.C126_edge_loss` | propext, Quot.sound |
| C126 | `TI.C126_width_rows` | propext |
| C126 | `TI.C126_count_rows` | propext, Quot.sound |
| C127 | `TI.C127_repeated` | propext, Classical.choice, Quot.sound |
| C127 | `TI.C127_shape` | propext, Classical.choice, Quot.sound |
| C127 | `TI.C127_one_by_one` | propext, Classical.choice, Quot.sound |
| C127 | `TI.C127_replicate_twice` | propext, Classical.choice, Quot.sound |
| C127 | `TI.C127_constant_twice` | propext, Classical.choice, Quot.sound |
| C127 | `TI.C127_linear_ramp_differ` | propext, Classical.choice, Quot.sound |
| C127 | `TI.C127_periodize_differ` | propext, Classical.choice, Quot.sound |
| C127 | `TI.C127_pool` | propext, Classical.choice, Quot.sound |
| C127 | `TI.C127_pool_one_by_one` | propext, Classical.choice, Quot.sound |
| C128 | `TI.C128_padder` | propext, Quot.sound |
| C128 | `TI.C128_padder_widths` | propext, Classical.choice, Quot.sound |
| C128 | `TI.C128_pool` | propext, Quot.sound |
| C128 | `TI.C128_pool_kernels` | propext, Classical.choice, Quot.sound |
| C128 | `TI.C128_powers` | propext, Quot.sound |
| C128 | `TI.C128_kept` | propext, Classical.choice, Quot.sound |
| C128 | `TI.C128_identity` | propext, Classical.choice, Quot.sound |
| C128 | `TI.C128_identity_differ` | propext, Classical.choice, Quot.sound |
| C129 | `TI.C129_adjoint` | propext, Classical.choice, Quot.sound |
| C129 | `TI.C129_self_adjoint` | propext, Classical.choice, Quot.sound |
| C129 | `TI.C129_commute` | propext, Classical.choice, Quot.sound |
| C129 | `TI.C129_compose` | propext, Classical.choice, Quot.sound |
| C129 | `TI.C129_components` | propext, Classical.choice, Quot.sound |
| C129 | `TI.C129_balanced` | propext, Classical.choice, Quot.sound |
| C129 | `TI.C129_laplace` | propext, Classical.choice, Quot.sound |
| C129 | `TI.C129_named` | propext, Classical.choice, Quot.sound |
| C129 | `TI.C129_adjoint_conditions` | propext, Classical.choice, Quot.sound |
| C129 | `TI.C129_order_conditions` | propext, Classical.choice, Quot.sound |
| C129 | `TI.C129_laplace_conditions` | propext, Classical.choice, Quot.sound |
| C130 | `TI.C130_outcome` | propext, Quot.sound |
| C130 | `TI.C130_exact` | propext, Quot.sound |
| C130 | `TI.C130_error` | propext, Classical.choice, Quot.sound |
| C130 | `TI.C130_error_same` | propext, Classical.choice, Quot.sound |
| C130 | `TI.C130_error_plain` | propext, Classical.choice, Quot.sound |
| C130 | `TI.C130_two_ways` | propext, Classical.choice, Quot.sound |
| C130 | `TI.C130_uniform` | propext, Classical.choice, Quot.sound |
| C130 | `TI.C130_relative` | propext, Classical.choice, Quot.sound |
| C130 | `TI.C130_zero` | propext, Classical.choice, Quot.sound |
| C130 | `TI.C130_small` | propext, Classical.choice, Quot.sound |
| C130 | `TI.C130_mse` | propext, Classical.choice, Quot.sound |
| C130 | `TI.C130_mse_zero` | propext, Classical.choice, Quot.sound |
| C130 | `TI.C130_attained` | propext, Classical.choice, Quot.sound |
| C130 | `TI.C130_conditions` | propext, Classical.choice, Quot.sound |
| C131 | `TI.C131_wraps` | propext, Classical.choice, Quot.sound |
| C131 | `TI.C131_fits` | propext, Classical.choice, Quot.sound |
| C131 | `TI.C131_integer_weights` | propext, Classical.choice, Quot.sound |
| C131 | `TI.C131_zero` | propext, Classical.choice, Quot.sound |
| C131 | `TI.C131_average` | propext, Classical.choice, Quot.sound |
| C131 | `TI.C131_same` | propext, Classical.choice, Quot.sound |
| C131 | `TI.C131_gaussian` | propext, Classical.choice, Quot.sound |
| C131 | `TI.C131_differ` | propext, Classical.choice, Quot.sound |
| C132 | `TI.C132_outcome` | propext, Classical.choice, Quot.sound |
| C132 | `TI.C132_wraps` | propext, Classical.choice, Quot.sound |
| C132 | `TI.C132_fits` | propext, Classical.choice, Quot.sound |
| C132 | `TI.C132_exact` | propext, Classical.choice, Quot.sound |
| C132 | `TI.C132_ramp` | propext, Classical.choice, Quot.sound |
| C132 | `TI.C132_mean_rejects` | propext, Classical.choice, Quot.sound |
| C132 | `TI.C132_differ` | propext, Classical.choice, Quot.sound |
| C133 | `TI.C133_wraps` | propext, Classical.choice, Quot.sound |
| C133 | `TI.C133_same` | propext, Classical.choice, Quot.sound |
| C133 | `TI.C133_fits` | propext, Classical.choice, Quot.sound |
| C133 | `TI.C133_exact` | propext, Classical.choice, Quot.sound |
| C133 | `TI.C133_zero` | propext, Classical.choice, Quot.sound |
| C133 | `TI.C133_plain` | propext, Classical.choice, Quot.sound |
| C133 | `TI.C133_differ` | propext, Classical.choice, Quot.sound |
| C134 | `TI.C134_components` | propext, Classical.choice, Quot.sound |
| C134 | `TI.C134_exact` | propext, Classical.choice, Quot.sound |
| C134 | `TI.C134_zero` | propext, Classical.choice, Quot.sound |
| C134 | `TI.C134_named` | propext, Classical.choice, Quot.sound |
| C134 | `TI.C134_magnitude` | propext, Classical.choice, Quot.sound |
| C134 | `TI.C134_rejects` | propext, Classical.choice, Quot.sound |
| C134 | `TI.C134_laplace` | propext, Classical.choice, Quot.sound |
| C134 | `TI.C134_differ` | propext, Classical.choice, Quot.sound |
| C135 | `TI.C135_formula` | propext, Classical.choice, Quot.sound |
| C135 | `TI.C135_exact` | propext, Classical.choice, Quot.sound |
| C135 | `TI.C135_brightens` | propext, Classical.choice, Quot.sound |
| C135 | `TI.C135_average` | propext, Classical.choice, Quot.sound |
| C135 | `TI.C135_gaussian` | propext, Classical.choice, Quot.sound |
| C135 | `TI.C135_differ` | propext, Classical.choice, Quot.sound |
| C136 | `TI.C136_none` | propext, Classical.choice, Quot.sound |
| C136 | `TI.C136_sum` | propext, Classical.choice, Quot.sound |
| C136 | `TI.C136_rejects_mean` | propext, Classical.choice, Quot.sound |
| C136 | `TI.C136_rejects` | propext, Classical.choice, Quot.sound |
| C136 | `TI.C136_rejects_reduction` | propext, Classical.choice, Quot.sound |
| C136 | `TI.C136_rejects_repeated` | propext, Classical.choice, Quot.sound |
| C136 | `TI.C136_symmetric` | propext, Classical.choice, Quot.sound |
| C136 | `TI.C136_zero_iff` | propext, Classical.choice, Quot.sound |
| C136 | `TI.C136_entry` | propext, Classical.choice, Quot.sound |
| C136 | `TI.C136_exact` | propext, Classical.choice, Quot.sound |
| C136 | `TI.C136_psnr` | propext, Classical.choice, Quot.sound |
| C136 | `TI.C136_differ` | propext, Classical.choice, Quot.sound |
| C137 | `TI.C137_formula` | propext, Classical.choice, Quot.sound |
| C137 | `TI.C137_blind` | propext, Classical.choice, Quot.sound |
| C137 | `TI.C137_cropped` | propext, Classical.choice, Quot.sound |
| C137 | `TI.C137_mean` | propext, Classical.choice, Quot.sound |
| C137 | `TI.C137_gaussian` | propext, Classical.choice, Quot.sound |
| C137 | `TI.C137_differ` | propext, Classical.choice, Quot.sound |
| C138 | `TI.C138_pad` | propext, Classical.choice, Quot.sound |
| C138 | `TI.C138_pad_nan` | propext, Classical.choice, Quot.sound |
| C138 | `TI.C138_copies` | propext, Classical.choice, Quot.sound |
| C138 | `TI.C138_pool` | propext, Classical.choice, Quot.sound |
| C138 | `TI.C138_pool_nan` | propext, Classical.choice, Quot.sound |
| C138 | `TI.C138_windows` | propext, Classical.choice, Quot.sound |
| C138 | `TI.C138_values` | propext, Classical.choice, Quot.sound |
| C138 | `TI.C138_infinite` | propext, Classical.choice, Quot.sound |
| C138 | `TI.C138_mask` | propext, Classical.choice, Quot.sound |
| C138 | `TI.C138_stat_nan` | propext, Quot.sound |
| C138 | `TI.C138_stat` | propext, Classical.choice, Quot.sound |
| C138 | `TI.C138_stat_median` | propext, Quot.sound |
| C138 | `TI.C138_differ` | propext, Classical.choice, Quot.sound |
| C138 | `TI.C138_support` | propext, Classical.choice, Quot.sound |
| C139 | `TI.C139_sharpen` | propext, Classical.choice, Quot.sound |
| C139 | `TI.C139_sharpen_finite` | propext, Classical.choice, Quot.sound |
| C139 | `TI.C139_mse` | propext, Classical.choice, Quot.sound |
| C139 | `TI.C139_mse_none` | propext, Classical.choice, Quot.sound |
| C139 | `TI.C139_mse_sum` | propext, Classical.choice, Quot.sound |
| C139 | `TI.C139_mse_mean` | propext, Classical.choice, Quot.sound |
| C139 | `TI.C139_mse_sign` | propext, Classical.choice, Quot.sound |
| C139 | `TI.C139_component` | propext, Classical.choice, Quot.sound |
| C139 | `TI.C139_first` | propext, Classical.choice, Quot.sound |
| C139 | `TI.C139_second` | propext, Classical.choice, Quot.sound |
| C139 | `TI.C139_differ` | propext, Classical.choice, Quot.sound |
| C140 | `TI.C140_forward` | propext, Classical.choice, Quot.sound |
| C140 | `TI.C140_map` | propext, Classical.choice, Quot.sound |
| C140 | `TI.C140_division` | propext, Classical.choice, Quot.sound |
| C140 | `TI.C140_single` | propext, Classical.choice, Quot.sound |
| C140 | `TI.C140_score` | propext, Classical.choice, Quot.sound |
| C140 | `TI.C140_pixels` | propext, Classical.choice, Quot.sound |
| C140 | `TI.C140_differ` | propext, Classical.choice, Quot.sound |
| C141 | `TI.C141_sharpen_outcome` | propext, Quot.sound |
| C141 | `TI.C141_sharpen_exact` | propext, Quot.sound |
| C141 | `TI.C141_sharpen` | propext, Classical.choice, Quot.sound |
| C141 | `TI.C141_component` | propext, Classical.choice, Quot.sound |
| C141 | `TI.C141_zero` | propext, Classical.choice, Quot.sound |
| C141 | `TI.C141_component_exact` | propext, Quot.sound |
| C141 | `TI.C141_conditions` | propext, Classical.choice, Quot.sound |
| C142 | `TI.C142_four_channels` | propext, Classical.choice, Quot.sound |
| C142 | `TI.C142_one_channel` | propext, Classical.choice, Quot.sound |
| C142 | `TI.C142_exact` | propext, Classical.choice, Quot.sound |
| C142 | `TI.C142_green` | propext, Classical.choice, Quot.sound |
| C142 | `TI.C142_rejects` | propext, Classical.choice, Quot.sound |
| C142 | `TI.C142_demosaic` | propext, Classical.choice, Quot.sound |
| C143 | `TI.C143_forward` | propext, Classical.choice, Quot.sound |
| C143 | `TI.C143_filter` | propext, Classical.choice, Quot.sound |
| C143 | `TI.C143_outcome` | propext, Classical.choice, Quot.sound |
| C143 | `TI.C143_estimate` | propext, Classical.choice, Quot.sound |
| C143 | `TI.C143_measured` | propext, Classical.choice, Quot.sound |
| C143 | `TI.C143_finite` | propext, Classical.choice, Quot.sound |
| C143 | `TI.C143_range` | propext, Classical.choice, Quot.sound |
| C144 | `TI.C144_outcome` | propext, Classical.choice, Quot.sound |
| C144 | `TI.C144_exact` | propext, Classical.choice, Quot.sound |
| C144 | `TI.C144_error` | propext, Classical.choice, Quot.sound |
| C144 | `TI.C144_scale` | propext, Classical.choice, Quot.sound |
| C144 | `TI.C144_range` | propext, Classical.choice, Quot.sound |
| C145 | `TI.C145_integers` | propext, Classical.choice, Quot.sound |
| C145 | `TI.C145_exact_iff` | propext, Classical.choice, Quot.sound |
| C145 | `TI.C145_float` | propext, Classical.choice, Quot.sound |
| C145 | `TI.C145_rejects` | propext, Classical.choice, Quot.sound |
| C145 | `TI.C145_outer` | propext, Classical.choice, Quot.sound |
| C146 | `TI.C146_entries` | propext, Classical.choice, Quot.sound |
| C146 | `TI.C146_zero` | propext, Classical.choice, Quot.sound |
| C146 | `TI.C146_outer` | propext, Classical.choice, Quot.sound |
| C147 | `TI.C147_polynomial` | propext, Classical.choice, Quot.sound |
| C147 | `TI.C147_relative` | propext, Classical.choice, Quot.sound |
| C147 | `TI.C147_outer` | propext, Classical.choice, Quot.sound |
| C148 | `TI.C148_blind` | propext, Classical.choice, Quot.sound |
| C148 | `TI.C148_blind_sum` | propext, Classical.choice, Quot.sound |
| C148 | `TI.C148_rejects_shapes` | propext, Classical.choice, Quot.sound |
| C148 | `TI.C148_rejects_small` | propext, Classical.choice, Quot.sound |
| C148 | `TI.C148_gaussian` | propext, Classical.choice, Quot.sound |
| C149 | `TI.C149_rejects` | propext, Classical.choice, Quot.sound |
| C149 | `TI.C149_weighted_div` | propext, Classical.choice, Quot.sound |
| C149 | `TI.C149_nan` | propext, Classical.choice, Quot.sound |
| C149 | `TI.C149_init` | propext, Classical.choice, Quot.sound |
| C150 | `TI.C150_edge_loss` | propext, Classical.choice, Quot.sound |
| C150 | `TI.C150_weighted_mul` | propext, Classical.choice, Quot.sound |
| C150 | `TI.C150_weighted_div` | propext, Classical.choice, Quot.sound |
| C150 | `TI.C150_weighted_sum` | propext, Classical.choice, Quot.sound |
| C150 | `TI.C150_init` | propext, Classical.choice, Quot.sound |
| C151 | `TI.C151_scores` | propext, Classical.choice, Quot.sound |
| C151 | `TI.C151_hidden` | propext, Classical.choice, Quot.sound |
| C151 | `TI.C151_rejects_shapes` | propext, Classical.choice, Quot.sound |
| C151 | `TI.C151_rejects_small` | propext, Classical.choice, Quot.sound |
| C151 | `TI.C151_rejects_short` | propext, Classical.choice, Quot.sound |
| C152 | `TI.C152_mse` | propext, Classical.choice, Quot.sound |
| C152 | `TI.C152_mse_gradient` | propext, Classical.choice, Quot.sound |
| C152 | `TI.C152_psnr` | propext, Classical.choice, Quot.sound |
| C152 | `TI.C152_ssim` | propext, Classical.choice, Quot.sound |
| C152 | `TI.C152_ssim_cropped` | propext, Classical.choice, Quot.sound |
| C152 | `TI.C152_ssim_defined` | propext, Classical.choice, Quot.sound |
| C152 | `TI.C152_msssim` | propext, Classical.choice, Quot.sound |
| C152 | `TI.C152_msssim_continuous` | propext, Classical.choice, Quot.sound |
| C153 | `TI.C153_components` | propext, Classical.choice, Quot.sound |
| C153 | `TI.C153_magnitude` | propext, Classical.choice, Quot.sound |
| C153 | `TI.C153_magnitude_kink` | propext, Classical.choice, Quot.sound |
| C153 | `TI.C153_loss_kink` | propext, Classical.choice, Quot.sound |
| C153 | `TI.C153_loss_smooth` | propext, Classical.choice, Quot.sound |
| C154 | `TI.C154_smooth` | propext, Classical.choice, Quot.sound |
| C154 | `TI.C154_jump` | propext, Classical.choice, Quot.sound |
| C154 | `TI.C154_derivative` | propext, Classical.choice, Quot.sound |
| C155 | `TI.C155_shared` | propext, Classical.choice, Quot.sound |
| C155 | `TI.C155_edge` | propext, Classical.choice, Quot.sound |
| C155 | `TI.C155_settings` | propext, Classical.choice, Quot.sound |
| C155 | `TI.C155_state` | propext, Classical.choice, Quot.sound |
| C155 | `TI.C155_ssim` | propext, Quot.sound |
| C156 | `TI.C156_numbers` | propext, Classical.choice, Quot.sound |
| C156 | `TI.C156_integers` | propext, Classical.choice, Quot.sound |
| C156 | `TI.C156_floats` | propext, Classical.choice, Quot.sound |
| C156 | `TI.C156_settings` | propext, Classical.choice, Quot.sound |
| C157 | `TI.C157_pool` | propext, Classical.choice, Quot.sound |
| C157 | `TI.C157_sharpen` | propext, Classical.choice, Quot.sound |
| C157 | `TI.C157_edges` | propext, Classical.choice, Quot.sound |
| C157 | `TI.C157_differ` | propext, Classical.choice, Quot.sound |
| C158 | `TI.C158_loss` | propext, Classical.choice, Quot.sound |
| C158 | `TI.C158_weighted_mul` | propext, Classical.choice, Quot.sound |
| C158 | `TI.C158_weighted_sum_differ` | propext, Classical.choice, Quot.sound |
| C158 | `TI.C158_weighted_div` | propext, Classical.choice, Quot.sound |
| C158 | `TI.C158_magnitude` | propext, Classical.choice, Quot.sound |
| C158 | `TI.C158_magnitude_triangle` | propext, Classical.choice, Quot.sound |
| C159 | `TI.C159_valid` | propext, Classical.choice, Quot.sound |
| C159 | `TI.C159_same` | propext, Classical.choice, Quot.sound |
| C159 | `TI.C159_gaussian` | propext, Classical.choice, Quot.sound |
| C160 | `TI.C160_valid` | propext, Classical.choice, Quot.sound |
| C160 | `TI.C160_same` | propext, Classical.choice, Quot.sound |
| C160 | `TI.C160_multiples` | propext, Classical.choice, Quot.sound |
| C160 | `TI.C160_multiples_same` | propext, Classical.choice, Quot.sound |
| C161 | `TI.C161_ssim` | propext, Classical.choice, Quot.sound |
| C161 | `TI.C161_gaussian` | propext, Classical.choice, Quot.sound |
| C161 | `TI.C161_msssim` | propext, Classical.choice, Quot.sound |
| C161 | `TI.C161_msssim_gaussian` | propext, Classical.choice, Quot.sound |
| C162 | `TI.C162_wide` | propext, Classical.choice, Quot.sound |
| C162 | `TI.C162_wide_same` | propext, Classical.choice, Quot.sound |
| C162 | `TI.C162_narrow` | propext, Classical.choice, Quot.sound |
| C162 | `TI.C162_sharpen` | propext, Classical.choice, Quot.sound |
| C162 | `TI.C162_ssim` | propext, Classical.choice, Quot.sound |
| C162 | `TI.C162_msssim` | propext, Classical.choice, Quot.sound |
| C162 | `TI.C162_ssim_narrow` | propext, Classical.choice, Quot.sound |
| C162 | `TI.C162_sharpen_wide` | propext, Classical.choice, Quot.sound |
| C163 | `TI.C163_components` | propext, Classical.choice, Quot.sound |
| C163 | `TI.C163_magnitude` | propext, Classical.choice, Quot.sound |
| C163 | `TI.C163_jump` | propext, Classical.choice, Quot.sound |
| C164 | `TI.C164_kept` | propext, Classical.choice, Quot.sound |
| C164 | `TI.C164_replaced` | propext, Classical.choice, Quot.sound |
| C164 | `TI.C164_components` | propext, Classical.choice, Quot.sound |
| C164 | `TI.C164_magnitude` | propext, Classical.choice, Quot.sound |
| C164 | `TI.C164_laplacian_of_gaussian` | propext, Classical.choice, Quot.sound |
| C165 | `TI.C165_components` | propext, Classical.choice, Quot.sound |
| C165 | `TI.C165_magnitude` | propext, Classical.choice, Quot.sound |
| C165 | `TI.C165_narrow` | propext, Classical.choice, Quot.sound |
| C165 | `TI.C165_narrow_magnitude` | propext, Classical.choice, Quot.sound |
| C165 | `TI.C165_second_order` | propext, Classical.choice, Quot.sound |
| C166 | `TI.C166_sharpen` | propext, Classical.choice, Quot.sound |
| C166 | `TI.C166_gaussian` | propext, Classical.choice, Quot.sound |
| C167 | `TI.C167_smooth` | propext, Classical.choice, Quot.sound |
| C167 | `TI.C167_wide` | propext, Classical.choice, Quot.sound |
| C167 | `TI.C167_narrow` | propext, Classical.choice, Quot.sound |
