# Axioms per theorem

Output of `#print axioms` for every theorem named in `MANIFEST.json`, grouped by the set of axioms.

## none

* `Verif.Cuda.C56_square`
* `Verif.C79_config_2d_partial`
* `Verif.C102_forward`

## propext

* `Verif.C78_operations`
* `Verif.C95_transformer_predict`
* `Verif.C96_exchange_fails`
* `Verif.C103_check`

## propext, Quot.sound

* `Verif.C09_parse_Q`
* `Verif.C15_meta_rows`
* `Verif.C16_array_eq_list`
* `Verif.C16_array_exists`
* `Verif.C16_array_refused`
* `Verif.C16_dict_list_errors`
* `Verif.C35_depth_first_returns`
* `Verif.C39_members`
* `Verif.C49_grid_partial`
* `Verif.C49_odd_off_by_one`
* `Verif.C49_residues`
* `Verif.Cuda.C56_stack_violated`
* `Verif.C69_double_factorial`
* `Verif.C75_meta_order`
* `Verif.C79_config_1d_violated`
* `Verif.C85_paths2`
* `Verif.C95_classes`
* `Verif.C95_documented`
* `Verif.C95_jax_backend`
* `Verif.C95_jax_frontend`
* `Verif.C95_linearisation`
* `Verif.C95_operations`
* `Verif.C95_scattering`
* `Verif.C95_skcuda_backend`
* `Verif.C95_super_init`
* `Verif.C95_torch_filters`
* `Verif.C95_transformer`
* `Verif.C96_bind`
* `Verif.C96_constructor`
* `Verif.C96_defaults`
* `Verif.C96_entry`
* `Verif.C96_exchange_partial`
* `Verif.C96_keras_backend`
* `Verif.C96_name`
* `Verif.C96_required`
* `Verif.C102_1d`
* `Verif.C103_1d`
* `Verif.C103_1d_refused`
* `Verif.C105_oversampling_partial`
* `Verif.C105_read_only`
* `Verif.C105_sides_import`
* `Verif.C105_sides_violated`

## propext, Classical.choice, Quot.sound

* `Verif.C01_build_succeeds`
* `Verif.C01_padding_fits`
* `Verif.C02_compute_padding_error`
* `Verif.C02_compute_padding_ok`
* `Verif.C03_border_indices`
* `Verif.C03_border_indices_missing`
* `Verif.C04_pad_rejects`
* `Verif.C04_pad_unpad`
* `Verif.C05_global_length`
* `Verif.C05_output_length`
* `Verif.C05_unpadded_length`
* `Verif.C06_log2_T`
* `Verif.C06_parse_T`
* `Verif.C07_log2_stride_error`
* `Verif.C07_log2_stride_ok`
* `Verif.C08_oversampling_partial`
* `Verif.C08_oversampling_stride_check_wrong`
* `Verif.C08_oversampling_values`
* `Verif.C09_Q_positive`
* `Verif.C10_subsample_compose`
* `Verif.C10_subsample_decimates`
* `Verif.C10_subsample_ok_iff`
* `Verif.C10_subsample_rejects`
* `Verif.C11_cdgmm_rejects`
* `Verif.C11_convolution`
* `Verif.C11_ifft_fft`
* `Verif.C12_factory_wavelet`
* `Verif.C12_levels`
* `Verif.C12_mean_reduction`
* `Verif.C12_riemann_sum`
* `Verif.C13_averaged`
* `Verif.C13_object_averaged`
* `Verif.C13_object_unaveraged`
* `Verif.C13_unaveraged`
* `Verif.C14_max_order_one`
* `Verif.C14_object`
* `Verif.C14_paths`
* `Verif.C15_columns`
* `Verif.C15_detail`
* `Verif.C15_meta_column`
* `Verif.C15_meta_fails_small_T`
* `Verif.C15_meta_object_partial`
* `Verif.C15_meta_ok_iff`
* `Verif.C16_dict_eq_list`
* `Verif.C16_list_sorted`
* `Verif.C17_construction`
* `Verif.C17_no_error`
* `Verif.C18_averaged`
* `Verif.C18_global`
* `Verif.C18_unaveraged`
* `Verif.C19_homogeneous`
* `Verif.C19_sign`
* `Verif.C19_zero`
* `Verif.C20_constant_partial`
* `Verif.C20_one_sample`
* `Verif.C21_bounded_partial`
* `Verif.C21_nonexpansive_partial`
* `Verif.C22_2d_array`
* `Verif.C22_2d_list`
* `Verif.C22_3d_array`
* `Verif.C22_3d_rejects`
* `Verif.C22_batch_succeeds`
* `Verif.C22_nd_array`
* `Verif.C22_nd_array_returns`
* `Verif.C22_nd_dict`
* `Verif.C22_nd_list`
* `Verif.C22_rows`
* `Verif.C23_complex_filter`
* `Verif.C23_every_out_type`
* `Verif.C23_torch_eq_numpy`
* `Verif.C24_anden_generator`
* `Verif.C25_number_of_filters_partial`
* `Verif.C25_room_violated`
* `Verif.C26_max_dyadic_subsampling`
* `Verif.C26_scale_le`
* `Verif.C27_below_nyquist`
* `Verif.C27_fails_when_Q1_smaller`
* `Verif.C27_scale_order`
* `Verif.C28_lowpass`
* `Verif.C28_morlet`
* `Verif.C28_one_sample`
* `Verif.C28_wavelets`
* `Verif.C29_periodization`
* `Verif.C30_decreasing_partial`
* `Verif.C30_fails`
* `Verif.C30_fallback`
* `Verif.C30_truncation_partial`
* `Verif.C31_intersection`
* `Verif.C31_xi_max`
* `Verif.C32_bank`
* `Verif.C32_nodup`
* `Verif.C32_object`
* `Verif.C32_paths`
* `Verif.C32_same_filter`
* `Verif.C33_joint_array_partial`
* `Verif.C33_joint_array_violated`
* `Verif.C33_joint_list`
* `Verif.C33_time_partial`
* `Verif.C33_time_violated`
* `Verif.C34_decimation_partial`
* `Verif.C34_returns_iff`
* `Verif.C34_violated`
* `Verif.C34_witness`
* `Verif.C35_first_order`
* `Verif.C35_object`
* `Verif.C36_rows_partial`
* `Verif.C36_stride_partial`
* `Verif.C36_violated_global`
* `Verif.C36_violated_stride`
* `Verif.C37_coefficient`
* `Verif.C37_indices`
* `Verif.C37_returns`
* `Verif.C38_centres`
* `Verif.C38_output_size`
* `Verif.C38_padding`
* `Verif.C38_rejects`
* `Verif.C39_array`
* `Verif.C39_channels`
* `Verif.C39_count`
* `Verif.C39_nodup`
* `Verif.C40_J_zero`
* `Verif.C40_bank`
* `Verif.C40_levels`
* `Verif.C40_no_error`
* `Verif.C41_level_zero`
* `Verif.C41_levels_of_the_bank`
* `Verif.C41_odd_size_fails`
* `Verif.C41_periodize_partial`
* `Verif.C42_decimates`
* `Verif.C42_image`
* `Verif.C42_ok_iff`
* `Verif.C43_backends_agree`
* `Verif.C43_numpy_mirror`
* `Verif.C43_one_pixel`
* `Verif.C44_batch`
* `Verif.C44_batch_succeeds`
* `Verif.C44_constant`
* `Verif.C44_roll`
* `Verif.C44_scaling`
* `Verif.C44_translation`
* `Verif.C44_wavelet_zero_mean`
* `Verif.C45_layout_partial`
* `Verif.C45_no_powers_violated`
* `Verif.C45_other_orders`
* `Verif.C45_rejects`
* `Verif.C46_object`
* `Verif.C46_translation`
* `Verif.C47_loop`
* `Verif.C47_modulus`
* `Verif.C47_permutation`
* `Verif.C47_unitary`
* `Verif.C48_homogeneous`
* `Verif.C49_filters_partial`
* `Verif.C49_odd_gaussian`
* `Verif.Buffers.C50_filters_1d`
* `Verif.Buffers.C50_filters_2d`
* `Verif.Buffers.C50_filters_3d`
* `Verif.Buffers.C50_names_gaussian`
* `Verif.Buffers.C50_names_injective`
* `Verif.Buffers.C50_unchanged`
* `Verif.Select.C51_backend`
* `Verif.Select.C51_case_insensitive`
* `Verif.Select.C51_default`
* `Verif.Select.C51_frontend`
* `Verif.Select.C51_repository_backends`
* `Verif.C52_2d_empty_violated`
* `Verif.C52_2d_predict_partial`
* `Verif.C52_2d_prepad_violated`
* `Verif.C52_3d_empty_violated`
* `Verif.C52_3d_predict_partial`
* `Verif.C52_empty_violated`
* `Verif.C52_predict_partial`
* `Verif.C52_returns`
* `Verif.C53_1d_axes_violated`
* `Verif.C53_1d_default`
* `Verif.C53_1d_global_violated`
* `Verif.C53_1d_partial`
* `Verif.C53_1d_scale_violated`
* `Verif.C53_2d_axes_violated`
* `Verif.C53_2d_order_violated`
* `Verif.C53_2d_partial`
* `Verif.C53_2d_prepad_violated`
* `Verif.Select.C54_absolute_violated`
* `Verif.Select.C54_base`
* `Verif.Select.C54_cache_partial`
* `Verif.ModulusStable.C55_defined`
* `Verif.ModulusStable.C55_forward`
* `Verif.ModulusStable.C55_gradient`
* `Verif.ModulusStable.C55_zero`
* `Verif.Cuda.C56_modulus`
* `Verif.Cuda.C56_subsample_1d`
* `Verif.Cuda.C56_subsample_2d_partial`
* `Verif.Cuda.C56_subsample_2d_violated`
* `Verif.Cuda.C56_values_1d`
* `Verif.Cuda.C56_values_2d_partial`
* `Verif.Cuda.C56_values_modulus`
* `Verif.C57_length_checked`
* `Verif.C58_closed_form`
* `Verif.C59_torch_eq_numpy`
* `Verif.C60_padding_margin`
* `Verif.C61_crop`
* `Verif.C61_oversampling_rejected`
* `Verif.C62_spin`
* `Verif.C62_symmetric`
* `Verif.C63_closed_form`
* `Verif.C64_constant`
* `Verif.C65_method`
* `Verif.C65_no_powers_violated`
* `Verif.C65_torch_eq_numpy_partial`
* `Verif.C66_batch`
* `Verif.C66_empty`
* `Verif.C67_bank`
* `Verif.C67_frequency`
* `Verif.C67_gaussian`
* `Verif.C67_gaussian_bank`
* `Verif.C67_gaussian_space`
* `Verif.C67_grid`
* `Verif.C67_mother`
* `Verif.C67_space`
* `Verif.C68_full`
* `Verif.C68_prefix`
* `Verif.C70_axes`
* `Verif.C70_reflection`
* `Verif.C70_rotation`
* `Verif.C71_angles_partial`
* `Verif.C71_polar_from_south`
* `Verif.C75_joint`
* `Verif.C75_time_violated`
* `Verif.C72_closed_form`
* `Verif.C72_object`
* `Verif.C73_joint_partial`
* `Verif.C73_time_violated`
* `Verif.C73_witness`
* `Verif.C74_fails`
* `Verif.C74_room_partial`
* `Verif.C74_violated`
* `Verif.C76_construction`
* `Verif.C76_defaults`
* `Verif.C76_no_error`
* `Verif.C77_tf_1d`
* `Verif.C77_tf_2d_partial`
* `Verif.C77_tf_2d_prepad_violated`
* `Verif.C77_tf_3d`
* `Verif.C77_tf_3d_method_violated`
* `Verif.C78_3d_rejects`
* `Verif.C78_np_1d_real`
* `Verif.C78_np_1d_rejects`
* `Verif.C78_np_2d_real`
* `Verif.C78_np_2d_rejects`
* `Verif.C78_np_3d_real`
* `Verif.C78_operations_3d`
* `Verif.C78_tf_1d_rejects`
* `Verif.C78_tf_2d_rejects`
* `Verif.C78_tf_cdgmm3d_unchecked`
* `Verif.C79_arguments_1d_violated`
* `Verif.C80_defaults_partial`
* `Verif.C80_global_joint_never`
* `Verif.C80_torch_eq_numpy_partial`
* `Verif.C80_violated`
* `Verif.C81_homogeneous`
* `Verif.C81_sign`
* `Verif.C81_zero`
* `Verif.C82_covariant`
* `Verif.C82_global_object_partial`
* `Verif.C82_global_partial`
* `Verif.C82_global_violated`
* `Verif.C82_local`
* `Verif.C83_mask_asymmetric`
* `Verif.C83_transpose_partial`
* `Verif.C83_violated`
* `Verif.C83_wavelets`
* `Verif.C84_array`
* `Verif.C84_circular`
* `Verif.C84_object`
* `Verif.C84_reverse`
* `Verif.C85_array`
* `Verif.C85_dict`
* `Verif.C85_list`
* `Verif.C85_object`
* `Verif.C85_object2`
* `Verif.C85_object3`
* `Verif.C85_saturates`
* `Verif.C86_dilation`
* `Verif.C86_gabor`
* `Verif.C86_lowpass`
* `Verif.C86_morlet`
* `Verif.C86_rotation`
* `Verif.C86_wavelet`
* `Verif.C87_bank`
* `Verif.C87_bank_unique`
* `Verif.C87_gauss`
* `Verif.C87_jtfs`
* `Verif.C87_morlet`
* `Verif.C87_object`
* `Verif.C87_periods_unique`
* `Verif.C87_xi_max`
* `Verif.C88_batch`
* `Verif.C88_predict_empty_violated`
* `Verif.C88_predict_partial`
* `Verif.C88_predict_returns`
* `Verif.C88_returns`
* `Verif.C89_columns`
* `Verif.C89_extra_row_violated`
* `Verif.C89_meta`
* `Verif.C89_range_partial`
* `Verif.C89_rows`
* `Verif.C89_stack_index`
* `Verif.C90_checks`
* `Verif.C90_np_real`
* `Verif.C90_np_rejects`
* `Verif.C90_tf`
* `Verif.C90_tf_rejects`
* `Verif.C91_half_turn`
* `Verif.C91_returned`
* `Verif.C92_inversion`
* `Verif.C93_array`
* `Verif.C93_array_sharp`
* `Verif.C93_averaged`
* `Verif.C93_bounded`
* `Verif.C93_dict`
* `Verif.C93_sharp`
* `Verif.C93_unaveraged`
* `Verif.C94_returns_iff`
* `Verif.C94_returns_iff_2d`
* `Verif.C94_returns_iff_3d`
* `Verif.C97_bounded`
* `Verif.C97_euclidean`
* `Verif.C98_defaults`
* `Verif.C98_uniform`
* `Verif.C99_energy`
* `Verif.C99_holder`
* `Verif.C99_root`
* `Verif.C100_core_2d`
* `Verif.C100_frontend_1d`
* `Verif.C100_meta_minus_two`
* `Verif.C100_meta_saturates`
* `Verif.C100_order_1d`
* `Verif.C100_order_2d`
* `Verif.C100_order_3d`
* `Verif.C100_violated_1d`
* `Verif.C100_violated_2d`
* `Verif.C100_violated_3d`
* `Verif.C100_wanted_1d_partial`
* `Verif.C100_wanted_2d_partial`
* `Verif.C101_args_1d`
* `Verif.C101_args_jtfs`
* `Verif.C101_array_1d`
* `Verif.C101_array_jtfs`
* `Verif.C101_length_1d`
* `Verif.C101_length_jtfs`
* `Verif.C101_refused_2d`
* `Verif.C101_refused_3d`
* `Verif.C102_2d`
* `Verif.C102_2d_refused`
* `Verif.C102_3d`
* `Verif.C102_alias_violated`
* `Verif.C102_jtfs`
* `Verif.C103_2d`
* `Verif.C103_2d_refused`
* `Verif.C103_3d_dtype_violated`
* `Verif.C103_3d_partial`
* `Verif.C103_3d_refused`
* `Verif.C103_double_violated`
* `Verif.C103_jtfs`
* `Verif.C103_jtfs_refused`
* `Verif.C104_1d`
* `Verif.C104_1d_call`
* `Verif.C104_2d`
* `Verif.C104_3d`
* `Verif.C104_3d_larger`
* `Verif.C104_jtfs`
* `Verif.C106_1d_partial`
* `Verif.C106_average_violated`
* `Verif.C106_frequency_violated`
* `Verif.C106_jtfs_partial`
* `Verif.C106_long_violated`
* `Verif.C106_oversampling_violated`
* `Verif.C106_params`
* `Verif.C107_1d`
* `Verif.C107_1d_first`
* `Verif.C107_3d`
* `Verif.C108_1d`
* `Verif.C108_2d`
* `Verif.C108_jtfs`
* `Verif.C108_shape_1d`
* `Verif.C109_average_violated`
* `Verif.C109_sum_partial`
* `Verif.C110_linear_1d`
* `Verif.C110_linear_2d`
* `Verif.C110_linear_jtfs`
* `Verif.C110_nonneg_1d`
* `Verif.C110_nonneg_3d`
* `Verif.C110_nonneg_jtfs`
* `Verif.C110_subadditive_1d`
* `Verif.C110_subadditive_3d`
* `Verif.C111_shift`
* `Verif.C112_array`
* `Verif.C112_averaged`
* `Verif.C112_averaged_sharp`
* `Verif.C112_dict`
* `Verif.C112_unaveraged`
* `Verif.C112_unaveraged_sharp`
* `Verif.C113_array_partial`
* `Verif.C113_bound`
* `Verif.C113_default_array_partial`
* `Verif.C113_default_partial`
* `Verif.C113_partial`
* `Verif.C113_violated`
* `Verif.C114_empty_violated`
* `Verif.C114_geometric_partial`
* `Verif.C114_partial`
* `Verif.C114_violated`
* `Verif.C115_array`
* `Verif.C115_contiguous`
* `Verif.C115_forward_violated`
* `Verif.C115_joint_violated`
* `Verif.C115_method_partial`
* `Verif.C115_none_partial`
* `Verif.C115_numpy1_partial`
* `Verif.C115_numpy_partial`
* `Verif.C115_one_violated`
* `Verif.C115_refused_partial`
* `Verif.C115_violated`
* `Verif.C116_array`
* `Verif.C116_dict`
* `Verif.C116_monotone`
* `Verif.C116_nonneg`
* `Verif.C116_subadditive`
* `Verif.C117_shift`
* `Verif.C118_bounded`
* `Verif.C118_monotone`
* `Verif.C118_nonneg`
* `Verif.C118_subadditive`
* `Verif.C119_float_violated`
* `Verif.C119_number_partial`
* `Verif.C120_T_violated`
* `Verif.C120_build_partial`
* `Verif.C120_dyadic_partial`
* `Verif.C120_log2_int`
* `Verif.C120_log2_partial`
* `Verif.C120_mid_angle`
* `Verif.C120_periodize`
* `Verif.C120_stride_violated`
* `Verif.C121_exact`
* `Verif.C121_nonneg`
* `Verif.C122_array`
* `Verif.C122_averaged`
* `Verif.C122_averaged_sharp`
* `Verif.C122_dict`
* `Verif.C122_returns`
* `Verif.C122_unaveraged`
* `Verif.C122_unaveraged_sharp`
* `Verif.C123_array`
* `Verif.C123_euclidean`
* `Verif.C123_returns`
* `Verif.C124_holder`
* `Verif.C124_returns`
* `Verif.C124_root`
* `Verif.C125_1d_partial`
* `Verif.C125_again_violated`
* `Verif.C125_doubled`
* `Verif.C125_idempotent_partial`
* `Verif.C125_jtfs`
* `Verif.C125_oversampling_violated`
* `Verif.C126_error`
* `Verif.C126_input`
* `Verif.C126_returns`
* `Verif.C126_sharp`
* `Verif.C127_bank`
* `Verif.C127_default_T_fails`
* `Verif.C127_minus_one_3d`
* `Verif.C127_natural`
* `Verif.C127_natural_2d`
* `Verif.C127_natural_3d`
* `Verif.C127_rejected_2d_partial`
* `Verif.C127_rejected_3d_partial`
* `Verif.C127_returns`
* `Verif.C127_stride_fails`
* `Verif.C128_bounded`
* `Verif.C128_lipschitz`
* `Verif.C128_local`
* `Verif.C128_sharp`
* `Verif.C129_multiple`
* `Verif.C129_shift`
* `Verif.C130_construction`
* `Verif.C130_natural_partial`
* `Verif.C130_violated`
* `Verif.C131_positive`
* `Verif.C131_rejected`
* `Verif.C132_bounded`
* `Verif.C132_euclidean`
* `Verif.C132_joint`
* `Verif.C132_nonneg`
* `Verif.C132_shift`
