{
 "claims": [
  {
   "property": "C01",
   "status": "proved",
   "theorems": [
    "Verif.C01_build_succeeds",
    "Verif.C01_padding_fits"
   ],
   "note": "all N>=1 and all supports"
  },
  {
   "property": "C02",
   "status": "proved",
   "theorems": [
    "Verif.C02_compute_padding_error",
    "Verif.C02_compute_padding_ok"
   ],
   "note": ""
  },
  {
   "property": "C03",
   "status": "proved",
   "theorems": [
    "Verif.C03_border_indices",
    "Verif.C03_border_indices_missing"
   ],
   "note": ""
  },
  {
   "property": "C04",
   "status": "proved",
   "theorems": [
    "Verif.C04_pad_rejects",
    "Verif.C04_pad_unpad"
   ],
   "note": ""
  },
  {
   "property": "C05",
   "status": "proved",
   "theorems": [
    "Verif.C05_global_length",
    "Verif.C05_output_length",
    "Verif.C05_unpadded_length"
   ],
   "note": "every row of every constructed object; also the single sample of global averaging"
  },
  {
   "property": "C06",
   "status": "proved",
   "theorems": [
    "Verif.C06_log2_T",
    "Verif.C06_parse_T"
   ],
   "note": ""
  },
  {
   "property": "C07",
   "status": "proved",
   "theorems": [
    "Verif.C07_log2_stride_error",
    "Verif.C07_log2_stride_ok"
   ],
   "note": ""
  },
  {
   "property": "C08",
   "status": "partial",
   "theorems": [
    "Verif.C08_oversampling_partial",
    "Verif.C08_oversampling_stride_check_wrong",
    "Verif.C08_oversampling_values"
   ],
   "note": "property is false of the code: the consistency check compares with 2**(log2_T-oversampling-1); negation proved with a witness, partial theorem for stride=None"
  },
  {
   "property": "C09",
   "status": "proved",
   "theorems": [
    "Verif.C09_Q_positive",
    "Verif.C09_parse_Q"
   ],
   "note": ""
  },
  {
   "property": "C10",
   "status": "proved",
   "theorems": [
    "Verif.C10_subsample_compose",
    "Verif.C10_subsample_decimates",
    "Verif.C10_subsample_ok_iff",
    "Verif.C10_subsample_rejects"
   ],
   "note": ""
  },
  {
   "property": "C11",
   "status": "proved",
   "theorems": [
    "Verif.C11_cdgmm_rejects",
    "Verif.C11_convolution",
    "Verif.C11_ifft_fft"
   ],
   "note": ""
  },
  {
   "property": "C12",
   "status": "proved",
   "theorems": [
    "Verif.C12_factory_wavelet",
    "Verif.C12_levels",
    "Verif.C12_mean_reduction",
    "Verif.C12_riemann_sum"
   ],
   "note": ""
  },
  {
   "property": "C13",
   "status": "proved",
   "theorems": [
    "Verif.C13_averaged",
    "Verif.C13_object_averaged",
    "Verif.C13_object_unaveraged",
    "Verif.C13_unaveraged"
   ],
   "note": "core on the padded signal, and end to end from constructor arguments and samples (C13_object_*)"
  },
  {
   "property": "C14",
   "status": "proved",
   "theorems": [
    "Verif.C14_max_order_one",
    "Verif.C14_object",
    "Verif.C14_paths"
   ],
   "note": "C14_object: the paths returned by a constructed object, from the constructor arguments and the closed form of the banks (C87)."
  },
  {
   "property": "C15",
   "status": "partial",
   "theorems": [
    "Verif.C15_columns",
    "Verif.C15_detail",
    "Verif.C15_meta_column",
    "Verif.C15_meta_fails_small_T",
    "Verif.C15_meta_object_partial",
    "Verif.C15_meta_ok_iff",
    "Verif.C15_meta_rows"
   ],
   "note": "property is false of the code for small T: meta() raises IndexError on an object whose transform works (C15_meta_fails_small_T); C15_meta_object_partial proves meta() returns when 2^J <= 4T, and C15_meta_rows/C15_meta_column/C15_columns describe its content whenever it returns"
  },
  {
   "property": "C16",
   "status": "proved",
   "theorems": [
    "Verif.C16_array_eq_list",
    "Verif.C16_array_exists",
    "Verif.C16_array_refused",
    "Verif.C16_dict_eq_list",
    "Verif.C16_dict_list_errors",
    "Verif.C16_list_sorted"
   ],
   "note": ""
  },
  {
   "property": "C17",
   "status": "proved",
   "theorems": [
    "Verif.C17_construction",
    "Verif.C17_no_error"
   ],
   "note": ""
  },
  {
   "property": "C18",
   "status": "proved",
   "theorems": [
    "Verif.C18_averaged",
    "Verif.C18_global",
    "Verif.C18_unaveraged"
   ],
   "note": ""
  },
  {
   "property": "C19",
   "status": "proved",
   "theorems": [
    "Verif.C19_homogeneous",
    "Verif.C19_sign",
    "Verif.C19_zero"
   ],
   "note": ""
  },
  {
   "property": "C20",
   "status": "partial",
   "theorems": [
    "Verif.C20_constant_partial",
    "Verif.C20_one_sample"
   ],
   "note": "missing: signals of one sample, for which it is false of the code: the wavelets are 0/0 (C20_one_sample)"
  },
  {
   "property": "C21",
   "status": "partial",
   "theorems": [
    "Verif.C21_bounded_partial",
    "Verif.C21_nonexpansive_partial"
   ],
   "note": "missing: signals of one sample, for which the coefficients are NaN in the code (C20_one_sample)"
  },
  {
   "property": "C22",
   "status": "proved",
   "theorems": [
    "Verif.C22_2d_array",
    "Verif.C22_2d_list",
    "Verif.C22_3d_array",
    "Verif.C22_3d_rejects",
    "Verif.C22_batch_succeeds",
    "Verif.C22_nd_array",
    "Verif.C22_nd_array_returns",
    "Verif.C22_nd_dict",
    "Verif.C22_nd_list",
    "Verif.C22_rows"
   ],
   "note": "C22_nd_*, C22_2d_*, C22_3d_*: arrays with any leading axes (1-D, 2-D and 3-D transforms, numpy), entry by entry; the other theorems: one batch axis; 3-D: see also C66"
  },
  {
   "property": "C23",
   "status": "proved",
   "theorems": [
    "Verif.C23_complex_filter",
    "Verif.C23_every_out_type",
    "Verif.C23_torch_eq_numpy"
   ],
   "note": ""
  },
  {
   "property": "C24",
   "status": "proved",
   "theorems": [
    "Verif.C24_anden_generator"
   ],
   "note": ""
  },
  {
   "property": "C25",
   "status": "partial",
   "theorems": [
    "Verif.C25_number_of_filters_partial",
    "Verif.C25_room_violated"
   ],
   "note": "the count is proved; missing: the room on the frequency axis, which is false in general (C25_room_violated), see C74_room_partial for when it holds"
  },
  {
   "property": "C26",
   "status": "proved",
   "theorems": [
    "Verif.C26_max_dyadic_subsampling",
    "Verif.C26_scale_le"
   ],
   "note": ""
  },
  {
   "property": "C27",
   "status": "proved",
   "theorems": [
    "Verif.C27_below_nyquist",
    "Verif.C27_fails_when_Q1_smaller",
    "Verif.C27_scale_order"
   ],
   "note": "C27_fails_when_Q1_smaller shows that Q1 >= Q2 cannot be dropped"
  },
  {
   "property": "C28",
   "status": "proved",
   "theorems": [
    "Verif.C28_lowpass",
    "Verif.C28_morlet",
    "Verif.C28_one_sample",
    "Verif.C28_wavelets"
   ],
   "note": "C28_one_sample records the degenerate padded length 1, where the code computes 0/0"
  },
  {
   "property": "C29",
   "status": "proved",
   "theorems": [
    "Verif.C29_periodization"
   ],
   "note": ""
  },
  {
   "property": "C30",
   "status": "partial",
   "theorems": [
    "Verif.C30_decreasing_partial",
    "Verif.C30_fails",
    "Verif.C30_fallback",
    "Verif.C30_truncation_partial"
   ],
   "note": "property is false of the code as stated: index half of the impulse response is left out of the sums (C30_fails); proved with the extra term 2|h[half]|, exactly as stated for filters with non-increasing modulus, and the fallback"
  },
  {
   "property": "C31",
   "status": "proved",
   "theorems": [
    "Verif.C31_intersection",
    "Verif.C31_xi_max"
   ],
   "note": ""
  },
  {
   "property": "C32",
   "status": "proved",
   "theorems": [
    "Verif.C32_bank",
    "Verif.C32_nodup",
    "Verif.C32_object",
    "Verif.C32_paths",
    "Verif.C32_same_filter"
   ],
   "note": "C32_object: the keys of the list returned by a constructed object in both formats, from the constructor arguments and the closed form of the three banks (C87)."
  },
  {
   "property": "C33",
   "status": "partial",
   "theorems": [
    "Verif.C33_joint_array_partial",
    "Verif.C33_joint_array_violated",
    "Verif.C33_joint_list",
    "Verif.C33_time_partial",
    "Verif.C33_time_violated"
   ],
   "note": "list output and joint array output described row by row (the joint array leaves the zeroth order out, C33_joint_array_violated); in format='time' the rows are those of meta() up to order, and the order differs (C33_time_violated)"
  },
  {
   "property": "C34",
   "status": "partial",
   "theorems": [
    "Verif.C34_decimation_partial",
    "Verif.C34_returns_iff",
    "Verif.C34_violated",
    "Verif.C34_witness"
   ],
   "note": "false as stated: C34_violated, C34_witness (stride below the scale of an admissible second-order wavelet: every call fails); proved: whenever the call returns the decimation is exact (C34_decimation_partial), and exactly when it returns (C34_returns_iff)"
  },
  {
   "property": "C35",
   "status": "proved",
   "theorems": [
    "Verif.C35_depth_first_returns",
    "Verif.C35_first_order",
    "Verif.C35_object"
   ],
   "note": "every backend (C35_first_order), constructed objects (C35_object)"
  },
  {
   "property": "C36",
   "status": "partial",
   "theorems": [
    "Verif.C36_rows_partial",
    "Verif.C36_stride_partial",
    "Verif.C36_violated_global",
    "Verif.C36_violated_stride"
   ],
   "note": "false as stated: C36_violated_stride (F < 2^J_fr: the low-pass path carries stride 2^J_fr but is decimated by 2^log2_stride_fr), C36_violated_global (F='global', joint array: every call fails); proved outside these cases"
  },
  {
   "property": "C37",
   "status": "proved",
   "theorems": [
    "Verif.C37_coefficient",
    "Verif.C37_indices",
    "Verif.C37_returns"
   ],
   "note": "See also C32_object, which contains the split keys of constructed objects."
  },
  {
   "property": "C38",
   "status": "proved",
   "theorems": [
    "Verif.C38_centres",
    "Verif.C38_output_size",
    "Verif.C38_padding",
    "Verif.C38_rejects"
   ],
   "note": ""
  },
  {
   "property": "C39",
   "status": "proved",
   "theorems": [
    "Verif.C39_array",
    "Verif.C39_channels",
    "Verif.C39_count",
    "Verif.C39_members",
    "Verif.C39_nodup"
   ],
   "note": ""
  },
  {
   "property": "C40",
   "status": "proved",
   "theorems": [
    "Verif.C40_J_zero",
    "Verif.C40_bank",
    "Verif.C40_levels",
    "Verif.C40_no_error"
   ],
   "note": "J=0 is rejected with IndexError by the code: C40_J_zero"
  },
  {
   "property": "C41",
   "status": "partial",
   "theorems": [
    "Verif.C41_level_zero",
    "Verif.C41_levels_of_the_bank",
    "Verif.C41_odd_size_fails",
    "Verif.C41_periodize_partial"
   ],
   "note": "property is false of the code for sizes not divisible by the period (C41_odd_size_fails); proved for all sizes divisible by 2^level, which covers every level the 2-D bank builds (C41_levels_of_the_bank)"
  },
  {
   "property": "C42",
   "status": "proved",
   "theorems": [
    "Verif.C42_decimates",
    "Verif.C42_image",
    "Verif.C42_ok_iff"
   ],
   "note": ""
  },
  {
   "property": "C43",
   "status": "proved",
   "theorems": [
    "Verif.C43_backends_agree",
    "Verif.C43_numpy_mirror",
    "Verif.C43_one_pixel"
   ],
   "note": "one-pixel sides: C43_one_pixel"
  },
  {
   "property": "C44",
   "status": "proved",
   "theorems": [
    "Verif.C44_batch",
    "Verif.C44_batch_succeeds",
    "Verif.C44_constant",
    "Verif.C44_roll",
    "Verif.C44_scaling",
    "Verif.C44_translation",
    "Verif.C44_wavelet_zero_mean"
   ],
   "note": ""
  },
  {
   "property": "C45",
   "status": "partial",
   "theorems": [
    "Verif.C45_layout_partial",
    "Verif.C45_no_powers_violated",
    "Verif.C45_other_orders",
    "Verif.C45_rejects"
   ],
   "note": "every nonempty list of powers; integral_powers=[] raises ValueError (C45_no_powers_violated). max_order other than 2, including 3 and above, returns the first order only: C45_other_orders"
  },
  {
   "property": "C46",
   "status": "proved",
   "theorems": [
    "Verif.C46_object",
    "Verif.C46_translation"
   ],
   "note": ""
  },
  {
   "property": "C47",
   "status": "proved",
   "theorems": [
    "Verif.C47_loop",
    "Verif.C47_modulus",
    "Verif.C47_permutation",
    "Verif.C47_unitary"
   ],
   "note": ""
  },
  {
   "property": "C48",
   "status": "proved",
   "theorems": [
    "Verif.C48_homogeneous"
   ],
   "note": ""
  },
  {
   "property": "C49",
   "status": "partial",
   "theorems": [
    "Verif.C49_filters_partial",
    "Verif.C49_grid_partial",
    "Verif.C49_odd_gaussian",
    "Verif.C49_odd_off_by_one",
    "Verif.C49_residues"
   ],
   "note": "property is false of the code for odd sides (C49_odd_off_by_one, C49_odd_gaussian); proved for even sides; residues covered once for every side"
  },
  {
   "property": "C50",
   "status": "proved",
   "theorems": [
    "Verif.Buffers.C50_filters_1d",
    "Verif.Buffers.C50_filters_2d",
    "Verif.Buffers.C50_filters_3d",
    "Verif.Buffers.C50_names_gaussian",
    "Verif.Buffers.C50_names_injective",
    "Verif.Buffers.C50_unchanged"
   ],
   "note": "1-D and joint time-frequency (one theorem), 2-D, 3-D; in 3-D the buffer of the Gaussian is neither reloaded nor used"
  },
  {
   "property": "C51",
   "status": "proved",
   "theorems": [
    "Verif.Select.C51_backend",
    "Verif.Select.C51_case_insensitive",
    "Verif.Select.C51_default",
    "Verif.Select.C51_frontend",
    "Verif.Select.C51_repository_backends"
   ],
   "note": ""
  },
  {
   "property": "C52",
   "status": "partial",
   "theorems": [
    "Verif.C52_2d_empty_violated",
    "Verif.C52_2d_predict_partial",
    "Verif.C52_2d_prepad_violated",
    "Verif.C52_3d_empty_violated",
    "Verif.C52_3d_predict_partial",
    "Verif.C52_empty_violated",
    "Verif.C52_predict_partial",
    "Verif.C52_returns"
   ],
   "note": "1-D interface: C52_predict_partial and C52_returns hold for every non-empty batch; for an empty batch predict raises ValueError although scattering returns (C52_empty_violated); the 2-D class in addition fails on every input with pre_pad=True (C52_2d_prepad_violated); 3-D: C52_3d_predict_partial for every non-empty batch, C52_3d_empty_violated"
  },
  {
   "property": "C53",
   "status": "partial",
   "theorems": [
    "Verif.C53_1d_axes_violated",
    "Verif.C53_1d_default",
    "Verif.C53_1d_global_violated",
    "Verif.C53_1d_partial",
    "Verif.C53_1d_scale_violated",
    "Verif.C53_2d_axes_violated",
    "Verif.C53_2d_order_violated",
    "Verif.C53_2d_partial",
    "Verif.C53_2d_prepad_violated"
   ],
   "note": "1-D: proved for one leading axis and local averaging with floor(log2 T)=J (in particular T=None); false for other scales, T='global' and another number of leading axes; 2-D: proved without pre_pad, for max_order>=2 and one leading axis; false otherwise (pre_pad: the layer never returns)"
  },
  {
   "property": "C54",
   "status": "partial",
   "theorems": [
    "Verif.Select.C54_absolute_violated",
    "Verif.Select.C54_base",
    "Verif.Select.C54_cache_partial"
   ],
   "note": "an absolute cache name replaces the base directory (os.path.join): C54_absolute_violated; proved for relative names"
  },
  {
   "property": "C55",
   "status": "proved",
   "theorems": [
    "Verif.ModulusStable.C55_defined",
    "Verif.ModulusStable.C55_forward",
    "Verif.ModulusStable.C55_gradient",
    "Verif.ModulusStable.C55_zero"
   ],
   "note": ""
  },
  {
   "property": "C56",
   "status": "partial",
   "theorems": [
    "Verif.Cuda.C56_modulus",
    "Verif.Cuda.C56_square",
    "Verif.Cuda.C56_stack_violated",
    "Verif.Cuda.C56_subsample_1d",
    "Verif.Cuda.C56_subsample_2d_partial",
    "Verif.Cuda.C56_subsample_2d_violated",
    "Verif.Cuda.C56_values_1d",
    "Verif.Cuda.C56_values_2d_partial",
    "Verif.Cuda.C56_values_modulus"
   ],
   "note": "false for 2-D inputs whose output is not square (C56_subsample_2d_violated says exactly when) and for the 5-D stacks of the joint time-frequency transform (C56_stack_violated); the 1-D and modulus kernels and square 2-D are proved"
  },
  {
   "property": "C57",
   "status": "proved",
   "theorems": [
    "Verif.C57_length_checked"
   ],
   "note": ""
  },
  {
   "property": "C58",
   "status": "proved",
   "theorems": [
    "Verif.C58_closed_form"
   ],
   "note": ""
  },
  {
   "property": "C59",
   "status": "proved",
   "theorems": [
    "Verif.C59_torch_eq_numpy"
   ],
   "note": "all sides: an object for one-pixel sides transforms nothing in either frontend; see C43_one_pixel for the padding of one pixel"
  },
  {
   "property": "C60",
   "status": "proved",
   "theorems": [
    "Verif.C60_padding_margin"
   ],
   "note": ""
  },
  {
   "property": "C61",
   "status": "proved",
   "theorems": [
    "Verif.C61_crop",
    "Verif.C61_oversampling_rejected"
   ],
   "note": ""
  },
  {
   "property": "C62",
   "status": "proved",
   "theorems": [
    "Verif.C62_spin",
    "Verif.C62_symmetric"
   ],
   "note": ""
  },
  {
   "property": "C63",
   "status": "proved",
   "theorems": [
    "Verif.C63_closed_form"
   ],
   "note": ""
  },
  {
   "property": "C64",
   "status": "proved",
   "theorems": [
    "Verif.C64_constant"
   ],
   "note": "even sides; for odd sides see C49_odd_gaussian"
  },
  {
   "property": "C65",
   "status": "partial",
   "theorems": [
    "Verif.C65_method",
    "Verif.C65_no_powers_violated",
    "Verif.C65_torch_eq_numpy_partial"
   ],
   "note": "every nonempty list of powers; with integral_powers=[] numpy raises and torch returns empty entries (C65_no_powers_violated). C65_method: another method is refused by torch and ignored by numpy"
  },
  {
   "property": "C66",
   "status": "proved",
   "theorems": [
    "Verif.C66_batch",
    "Verif.C66_empty"
   ],
   "note": "every non-empty batch (C22_3d_array for arrays with any leading axes); an array without volumes raises ValueError (C66_empty, C22_3d_rejects), unlike the 1-D and 2-D transforms"
  },
  {
   "property": "C67",
   "status": "proved",
   "theorems": [
    "Verif.C67_bank",
    "Verif.C67_frequency",
    "Verif.C67_gaussian",
    "Verif.C67_gaussian_bank",
    "Verif.C67_gaussian_space",
    "Verif.C67_grid",
    "Verif.C67_mother",
    "Verif.C67_space"
   ],
   "note": ""
  },
  {
   "property": "C68",
   "status": "proved",
   "theorems": [
    "Verif.C68_full",
    "Verif.C68_prefix"
   ],
   "note": ""
  },
  {
   "property": "C69",
   "status": "proved",
   "theorems": [
    "Verif.C69_double_factorial"
   ],
   "note": ""
  },
  {
   "property": "C70",
   "status": "proved",
   "theorems": [
    "Verif.C70_axes",
    "Verif.C70_reflection",
    "Verif.C70_rotation"
   ],
   "note": "the unitary mixing of spherical harmonics under the rotation is a hypothesis on sph_harm; met by the order-one harmonics in the example"
  },
  {
   "property": "C71",
   "status": "partial",
   "theorems": [
    "Verif.C71_angles_partial",
    "Verif.C71_polar_from_south"
   ],
   "note": "property is false of the code: z = -r cos(polar) (C71_polar_from_south); proved with the polar angle measured from the negative z axis"
  },
  {
   "property": "C75",
   "status": "partial",
   "theorems": [
    "Verif.C75_joint",
    "Verif.C75_meta_order",
    "Verif.C75_time_violated"
   ],
   "note": "joint format and meta() proved; in format='time' the list entries carry an order one too small (C75_time_violated)"
  },
  {
   "property": "C72",
   "status": "proved",
   "theorems": [
    "Verif.C72_closed_form",
    "Verif.C72_object"
   ],
   "note": "stated for every filter list and for the library's filters; with local averaging it carries the fact that j2 <= log2_stride, see C34"
  },
  {
   "property": "C73",
   "status": "partial",
   "theorems": [
    "Verif.C73_joint_partial",
    "Verif.C73_time_violated",
    "Verif.C73_witness"
   ],
   "note": "false in format='time' (C73_time_violated, C73_witness); proved in format='joint'"
  },
  {
   "property": "C74",
   "status": "partial",
   "theorems": [
    "Verif.C74_fails",
    "Verif.C74_room_partial",
    "Verif.C74_violated"
   ],
   "note": "false for small F (C74_violated, C74_fails); proved for 2^J_fr <= 8 F, with the exact shortfall of the margin"
  },
  {
   "property": "C76",
   "status": "proved",
   "theorems": [
    "Verif.C76_construction",
    "Verif.C76_defaults",
    "Verif.C76_no_error"
   ],
   "note": "F between 2^J_fr/8 and 2^(J_fr+1), no stride_fr; Q2 <= Q1 as in C17; with local averaging log2_stride >= J-1"
  },
  {
   "property": "C77",
   "status": "partial",
   "theorems": [
    "Verif.C77_tf_1d",
    "Verif.C77_tf_2d_partial",
    "Verif.C77_tf_2d_prepad_violated",
    "Verif.C77_tf_3d",
    "Verif.C77_tf_3d_method_violated"
   ],
   "note": "false of the code in 2-D with pre_pad=True (C77_tf_2d_prepad_violated: every call raises) and in 3-D for another method (C77_tf_3d_method_violated); proved in 1-D, in 2-D without pre_pad, in 3-D with method='integral'"
  },
  {
   "property": "C78",
   "status": "proved",
   "theorems": [
    "Verif.C78_3d_rejects",
    "Verif.C78_np_1d_real",
    "Verif.C78_np_1d_rejects",
    "Verif.C78_np_2d_real",
    "Verif.C78_np_2d_rejects",
    "Verif.C78_np_3d_real",
    "Verif.C78_operations",
    "Verif.C78_operations_3d",
    "Verif.C78_tf_1d_rejects",
    "Verif.C78_tf_2d_rejects",
    "Verif.C78_tf_cdgmm3d_unchecked"
   ],
   "note": "numpy and TensorFlow; complex64 arithmetic is taken as exact"
  },
  {
   "property": "C79",
   "status": "partial",
   "theorems": [
    "Verif.C79_arguments_1d_violated",
    "Verif.C79_config_1d_violated",
    "Verif.C79_config_2d_partial"
   ],
   "note": "get_config holds in 2-D; in 1-D it always raises, and max_order/oversampling are ignored"
  },
  {
   "property": "C80",
   "status": "partial",
   "theorems": [
    "Verif.C80_defaults_partial",
    "Verif.C80_global_joint_never",
    "Verif.C80_torch_eq_numpy_partial",
    "Verif.C80_violated"
   ],
   "note": "proved when the padded frequency axis has room for the first-order wavelets (in particular F=None, 'global', 0) and not both T='global' and format='joint'; false in the latter case: torch never returns a joint array with T='global' (default F), numpy does"
  },
  {
   "property": "C81",
   "status": "proved",
   "theorems": [
    "Verif.C81_homogeneous",
    "Verif.C81_sign",
    "Verif.C81_zero"
   ],
   "note": "numpy; with C80 also for torch"
  },
  {
   "property": "C82",
   "status": "partial",
   "theorems": [
    "Verif.C82_covariant",
    "Verif.C82_global_object_partial",
    "Verif.C82_global_partial",
    "Verif.C82_global_violated",
    "Verif.C82_local"
   ],
   "note": "numpy, padded signal; with C80 also for torch. T='global': the coefficients are unchanged under shifts by multiples of the step of the grid; for other shifts the claim is false (C82_global_violated)"
  },
  {
   "property": "C83",
   "status": "partial",
   "theorems": [
    "Verif.C83_mask_asymmetric",
    "Verif.C83_transpose_partial",
    "Verif.C83_violated",
    "Verif.C83_wavelets"
   ],
   "note": "proved for zeroth and first order, and at second order for j1=0 or t2+2<=L/2 (no wrap of the mirrored second angle); for the remaining pairs the claim is false of the code: the mask of periodize_filter_fft is not symmetric (C83_mask_asymmetric), and C83_violated exhibits an image (a cosine, J=3, L=2) on which the coefficients of the pair (j1,j2)=(1,2) differ at every pixel"
  },
  {
   "property": "C84",
   "status": "proved",
   "theorems": [
    "Verif.C84_array",
    "Verif.C84_circular",
    "Verif.C84_object",
    "Verif.C84_reverse"
   ],
   "note": "numpy; the object theorem is for stride 1, local averaging and an even number of samples, as in the statement"
  },
  {
   "property": "C85",
   "status": "proved",
   "theorems": [
    "Verif.C85_array",
    "Verif.C85_dict",
    "Verif.C85_list",
    "Verif.C85_object",
    "Verif.C85_object2",
    "Verif.C85_object3",
    "Verif.C85_paths2",
    "Verif.C85_saturates"
   ],
   "note": "numpy frontends; 1-D list, dict and array; 2-D list and array; 3-D array"
  },
  {
   "property": "C86",
   "status": "proved",
   "theorems": [
    "Verif.C86_dilation",
    "Verif.C86_gabor",
    "Verif.C86_lowpass",
    "Verif.C86_morlet",
    "Verif.C86_rotation",
    "Verif.C86_wavelet"
   ],
   "note": "the normalisation constant of the code, 2*3.1415, is part of the statement"
  },
  {
   "property": "C87",
   "status": "proved",
   "theorems": [
    "Verif.C87_bank",
    "Verif.C87_bank_unique",
    "Verif.C87_gauss",
    "Verif.C87_jtfs",
    "Verif.C87_morlet",
    "Verif.C87_object",
    "Verif.C87_periods_unique",
    "Verif.C87_xi_max"
   ],
   "note": "the description of the parameters (Spec.IsBank) is shown to determine the list; the elbow of the docstring formula differs from the one of the code by a factor between 1 and 2**(1/Q), and the case without geometric part starts the arithmetic one from a bandwidth, as recorded in DESIGN.md; C87_jtfs covers the frequential filters of time-frequency scattering: their normalisation is stated for profiles that do not vanish on the whole grid, which is proved for the filters of positive centre frequency on grids of even size"
  },
  {
   "property": "C88",
   "status": "partial",
   "theorems": [
    "Verif.C88_batch",
    "Verif.C88_predict_empty_violated",
    "Verif.C88_predict_partial",
    "Verif.C88_predict_returns",
    "Verif.C88_returns"
   ],
   "note": "proved for TimeFrequencyScattering itself (C88_batch, C88_returns: every batch shape, every output type); the scikit-learn class is proved for non-empty batches and raises ValueError on empty ones (C88_predict_empty_violated)"
  },
  {
   "property": "C89",
   "status": "partial",
   "theorems": [
    "Verif.C89_columns",
    "Verif.C89_extra_row_violated",
    "Verif.C89_meta",
    "Verif.C89_range_partial",
    "Verif.C89_rows",
    "Verif.C89_stack_index"
   ],
   "note": "rows, order, indices and columns proved in full (C89_meta, C89_columns, C89_stack_index); the claim that the range of first-order indices has one entry per frequency row is false: one too few when the stride divides the number of first-order filters (C89_range_partial, C89_extra_row_violated)"
  },
  {
   "property": "C90",
   "status": "proved",
   "theorems": [
    "Verif.C90_checks",
    "Verif.C90_np_real",
    "Verif.C90_np_rejects",
    "Verif.C90_tf",
    "Verif.C90_tf_rejects"
   ],
   "note": "TensorFlow float32 arithmetic is taken as exact; integer and complex dtypes are one each"
  },
  {
   "property": "C91",
   "status": "proved",
   "theorems": [
    "Verif.C91_half_turn",
    "Verif.C91_returned"
   ],
   "note": "on the padded grid for any filters (C91_half_turn), and for the returned frame with pre_pad (C91_returned); with reflect padding the centre of the image is not on the 2^J grid"
  },
  {
   "property": "C92",
   "status": "proved",
   "theorems": [
    "Verif.C92_inversion"
   ],
   "note": "scipy.special.sph_harm is a parameter with the conjugation symmetry as hypothesis"
  },
  {
   "property": "C93",
   "status": "proved",
   "theorems": [
    "Verif.C93_array",
    "Verif.C93_array_sharp",
    "Verif.C93_averaged",
    "Verif.C93_bounded",
    "Verif.C93_dict",
    "Verif.C93_sharp",
    "Verif.C93_unaveraged"
   ],
   "note": "corollary of the closed form of C13 and of the L1 norms of C21"
  },
  {
   "property": "C94",
   "status": "proved",
   "theorems": [
    "Verif.C94_returns_iff",
    "Verif.C94_returns_iff_2d",
    "Verif.C94_returns_iff_3d"
   ],
   "note": "1-D, 2-D and 3-D numpy transforms on one signal, image or volume; the 1-D statement assumes Q1 >= Q2 and a stride not above T"
  },
  {
   "property": "C95",
   "status": "proved",
   "theorems": [
    "Verif.C95_classes",
    "Verif.C95_documented",
    "Verif.C95_jax_backend",
    "Verif.C95_jax_frontend",
    "Verif.C95_linearisation",
    "Verif.C95_operations",
    "Verif.C95_scattering",
    "Verif.C95_skcuda_backend",
    "Verif.C95_super_init",
    "Verif.C95_torch_filters",
    "Verif.C95_transformer",
    "Verif.C95_transformer_predict"
   ],
   "note": "attributes of classes of other libraries are a parameter"
  },
  {
   "property": "C96",
   "status": "partial",
   "theorems": [
    "Verif.C96_bind",
    "Verif.C96_constructor",
    "Verif.C96_defaults",
    "Verif.C96_entry",
    "Verif.C96_exchange_fails",
    "Verif.C96_exchange_partial",
    "Verif.C96_keras_backend",
    "Verif.C96_name",
    "Verif.C96_required"
   ],
   "note": "false as stated: the eleventh argument of joint time-frequency scattering and the seventh of 2-D scattering have another meaning in TensorFlow (C96_exchange_fails); C96_exchange_partial covers all shorter argument lists and keywords; the rest is proved as stated"
  },
  {
   "property": "C97",
   "status": "proved",
   "theorems": [
    "Verif.C97_bounded",
    "Verif.C97_euclidean"
   ],
   "note": "Every parameter choice and every pair of images for which the numpy object returns. The gains are bounds on the transfer functions of the Gabor and Morlet filters, obtained from Gaussian sums (Poisson summation); levels of the bank keep the gain because they crop the spectrum (C41). Exact real arithmetic."
  },
  {
   "property": "C98",
   "status": "proved",
   "theorems": [
    "Verif.C98_defaults",
    "Verif.C98_uniform"
   ],
   "note": "numpy object on one signal with a list output, Q1 >= Q2; C98_defaults has no hypothesis on the construction"
  },
  {
   "property": "C99",
   "status": "proved",
   "theorems": [
    "Verif.C99_energy",
    "Verif.C99_holder",
    "Verif.C99_root"
   ],
   "note": "numpy object on one volume; the spherical harmonics are a parameter, and the theorem assumes of them that over the orders of a degree l the squared moduli add up to at most (2l+1)/(4 pi)"
  },
  {
   "property": "C100",
   "status": "partial",
   "theorems": [
    "Verif.C100_core_2d",
    "Verif.C100_frontend_1d",
    "Verif.C100_meta_minus_two",
    "Verif.C100_meta_saturates",
    "Verif.C100_order_1d",
    "Verif.C100_order_2d",
    "Verif.C100_order_3d",
    "Verif.C100_violated_1d",
    "Verif.C100_violated_2d",
    "Verif.C100_violated_3d",
    "Verif.C100_wanted_1d_partial",
    "Verif.C100_wanted_2d_partial"
   ],
   "note": "exact table of what every integer does in each family (C100_order_1d/2d/3d); false in all three: 1-D accepts -2 (and meta() then raises), 2-D accepts everything below 1, 3-D accepts everything and drops the second order above 2"
  },
  {
   "property": "C101",
   "status": "proved",
   "theorems": [
    "Verif.C101_args_1d",
    "Verif.C101_args_jtfs",
    "Verif.C101_array_1d",
    "Verif.C101_array_jtfs",
    "Verif.C101_length_1d",
    "Verif.C101_length_jtfs",
    "Verif.C101_refused_2d",
    "Verif.C101_refused_3d"
   ],
   "note": "for an object that accepts some signal, exact exception for every array of another length (1-D, joint time-frequency), and for 2-D and 3-D every array of another shape; numpy frontends"
  },
  {
   "property": "C102",
   "status": "proved",
   "theorems": [
    "Verif.C102_1d",
    "Verif.C102_2d",
    "Verif.C102_2d_refused",
    "Verif.C102_3d",
    "Verif.C102_alias_violated",
    "Verif.C102_forward",
    "Verif.C102_jtfs"
   ],
   "note": "Layout is one flag per tensor (contiguous or possibly not); which torch operations allocate contiguous results is listed in the header of Model/Layout and trusted."
  },
  {
   "property": "C103",
   "status": "partial",
   "theorems": [
    "Verif.C103_1d",
    "Verif.C103_1d_refused",
    "Verif.C103_2d",
    "Verif.C103_2d_refused",
    "Verif.C103_3d_dtype_violated",
    "Verif.C103_3d_partial",
    "Verif.C103_3d_refused",
    "Verif.C103_check",
    "Verif.C103_double_violated",
    "Verif.C103_jtfs",
    "Verif.C103_jtfs_refused"
   ],
   "note": "Proved in 1-D, 2-D and joint scattering (up to the last reshape and assembly, which keep kinds), and the refusals in all four. Missing because false: the 3-D result is float32 after S.double() (C103_3d_dtype_violated; C103_3d_partial gives its exact kind), and the DoubleTensor named by its message is refused by a fresh object (C103_double_violated). Without local averaging and with no first-order wavelet a 1-D object multiplies by nothing, hence the hypothesis of C103_1d_refused."
  },
  {
   "property": "C104",
   "status": "proved",
   "theorems": [
    "Verif.C104_1d",
    "Verif.C104_1d_call",
    "Verif.C104_2d",
    "Verif.C104_3d",
    "Verif.C104_3d_larger",
    "Verif.C104_jtfs"
   ],
   "note": "An object is the record of what the constructor stored together with the current values of the attributes that a call reads. Covers the attributes listed in the property; other attributes (for example shape or backend) are not modelled as assignable."
  },
  {
   "property": "C105",
   "status": "partial",
   "theorems": [
    "Verif.C105_oversampling_partial",
    "Verif.C105_read_only",
    "Verif.C105_sides_import",
    "Verif.C105_sides_violated"
   ],
   "note": "Read-only attributes and oversampling are proved for every frontend. Missing because false: reading M or N of a 2-D object raises NameError in every frontend (C105_sides_violated), since the module calls warn without importing it."
  },
  {
   "property": "C106",
   "status": "partial",
   "theorems": [
    "Verif.C106_1d_partial",
    "Verif.C106_average_violated",
    "Verif.C106_frequency_violated",
    "Verif.C106_jtfs_partial",
    "Verif.C106_long_violated",
    "Verif.C106_oversampling_violated",
    "Verif.C106_params"
   ],
   "note": "Proved when T and F are numbers other than 0, or None with 2**J (2**J_fr) at most the length, and oversampling is 0 or None. Missing because false: T or F equal to 0 or 'global' become local averaging (C106_average_violated, C106_frequency_violated), T=None with 2**J above the length and any oversampling > 0 give an object that cannot be rebuilt (C106_long_violated, C106_oversampling_violated). 2-D and 3-D constructors store their arguments unchanged (C96)."
  },
  {
   "property": "C107",
   "status": "proved",
   "theorems": [
    "Verif.C107_1d",
    "Verif.C107_1d_first",
    "Verif.C107_3d"
   ],
   "note": ""
  },
  {
   "property": "C108",
   "status": "proved",
   "theorems": [
    "Verif.C108_1d",
    "Verif.C108_2d",
    "Verif.C108_jtfs",
    "Verif.C108_shape_1d"
   ],
   "note": ""
  },
  {
   "property": "C109",
   "status": "partial",
   "theorems": [
    "Verif.C109_average_violated",
    "Verif.C109_sum_partial"
   ],
   "note": "Missing because false: average_global sums instead of averaging, over the padded signal instead of the signal, and over as many samples as the scale of the path keeps; a constant c has zeroth coefficient Npadded * c (C109_average_violated, for every object). C109_sum_partial states exactly what is computed, path by path, in terms of the sequence of which T=0 returns a part. Torch and TensorFlow follow by C23 and C77."
  },
  {
   "property": "C110",
   "status": "proved",
   "theorems": [
    "Verif.C110_linear_1d",
    "Verif.C110_linear_2d",
    "Verif.C110_linear_jtfs",
    "Verif.C110_nonneg_1d",
    "Verif.C110_nonneg_3d",
    "Verif.C110_nonneg_jtfs",
    "Verif.C110_subadditive_1d",
    "Verif.C110_subadditive_3d"
   ],
   "note": "Proved from the closed forms C13, C58, C63, C72 for constructed objects."
  },
  {
   "property": "C111",
   "status": "proved",
   "theorems": [
    "Verif.C111_shift"
   ],
   "note": "Stated on the padded signal: the reflection at the borders is not translated with the signal. Real arithmetic."
  },
  {
   "property": "C112",
   "status": "proved",
   "theorems": [
    "Verif.C112_array",
    "Verif.C112_averaged",
    "Verif.C112_averaged_sharp",
    "Verif.C112_dict",
    "Verif.C112_unaveraged",
    "Verif.C112_unaveraged_sharp"
   ],
   "note": "The factor sqrt(3) is the reflection: every sample is repeated at most three times by the padding. Real arithmetic."
  },
  {
   "property": "C113",
   "status": "partial",
   "theorems": [
    "Verif.C113_array_partial",
    "Verif.C113_bound",
    "Verif.C113_default_array_partial",
    "Verif.C113_default_partial",
    "Verif.C113_partial",
    "Verif.C113_violated"
   ],
   "note": "Proved for local averaging with T and stride at least 2^J (the defaults), J >= 9, Q <= 2^J and a padded length of at least 2^(J+4), both as a statement about accepted objects (C113_partial) and end to end for the default arguments (C113_default_partial); for smaller J the theorem C113_bound gives the constant sqrt(3.007 (1+X+X^2)/2^log2_stride), X = 10.51 + 0.206 J. False with averaging off (C113_violated): order zero is then the signal itself, so every object returns an output of larger norm than its input. Missing: contractivity with local averaging for smaller J or a shorter stride, where only the constant is bounded. Real arithmetic."
  },
  {
   "property": "C114",
   "status": "partial",
   "theorems": [
    "Verif.C114_empty_violated",
    "Verif.C114_geometric_partial",
    "Verif.C114_partial",
    "Verif.C114_violated"
   ],
   "note": "Proved: for every bank whose first bandwidth exceeds 0.1/2^J (all Q <= 2^J), level 0.2 between 1/2^(J+1) and the largest centre frequency (C114_partial), and level sqrt(0.5) above the elbow (C114_geometric_partial). False as documented: at the Nyquist frequency every wavelet of every bank is below sqrt(0.5) (C114_violated), and for Q >= 2^(J+2) the code takes the bandwidth for the centre frequency and no wavelet responds anywhere in the interval (C114_empty_violated). The statement is about the parameters (xi, sigma) of the bank, not about the sampled filters."
  },
  {
   "property": "C115",
   "status": "partial",
   "theorems": [
    "Verif.C115_array",
    "Verif.C115_contiguous",
    "Verif.C115_forward_violated",
    "Verif.C115_joint_violated",
    "Verif.C115_method_partial",
    "Verif.C115_none_partial",
    "Verif.C115_numpy1_partial",
    "Verif.C115_numpy_partial",
    "Verif.C115_one_violated",
    "Verif.C115_refused_partial",
    "Verif.C115_violated"
   ],
   "note": "Proved: arrays pass (C115_array, C115_numpy_partial, C115_numpy1_partial); None is a TypeError in 2-D, in 3-D and for torch in 1-D (C115_none_partial); scattering of torch and tensorflow in 2-D and 3-D (C115_method_partial); every non-array is refused by some exception (C115_refused_partial). False elsewhere: numpy in 2-D and 3-D raises NameError (C115_violated), the 1-D frontends AttributeError (C115_one_violated), forward of torch AttributeError (C115_forward_violated)."
  },
  {
   "property": "C116",
   "status": "proved",
   "theorems": [
    "Verif.C116_array",
    "Verif.C116_dict",
    "Verif.C116_monotone",
    "Verif.C116_nonneg",
    "Verif.C116_subadditive"
   ],
   "note": "C116_nonneg, C116_monotone, C116_subadditive.  The tolerance is in the statement; that the exact coefficients are never negative is neither proved nor refuted."
  },
  {
   "property": "C117",
   "status": "proved",
   "theorems": [
    "Verif.C117_shift"
   ],
   "note": "C117_shift.  Shifts that are not multiples of 2^j are outside the statement: the decimated modulus of such a roll is not a roll, and the change then includes the aliasing of the modulus."
  },
  {
   "property": "C118",
   "status": "proved",
   "theorems": [
    "Verif.C118_bounded",
    "Verif.C118_monotone",
    "Verif.C118_nonneg",
    "Verif.C118_subadditive"
   ],
   "note": "C118_nonneg, C118_monotone, C118_bounded, C118_subadditive.  Coarser wavelets (j >= 1) are outside the statement: their moduli are averaged with a filter whose frequencies above pi/2^j are cut to zero (periodize_filter_fft), and a cut Gaussian has an impulse response with negative lobes."
  },
  {
   "property": "C119",
   "status": "partial",
   "theorems": [
    "Verif.C119_float_violated",
    "Verif.C119_number_partial"
   ],
   "note": "Violated: with a float F between 1 and 2**J_fr the constructor returns and no call does; a call that returns with the integer raises TypeError (C119_float_violated), because the padded width is a float.  Holds for integers, 0.0 and floats larger than 2**J_fr (C119_number_partial)."
  },
  {
   "property": "C120",
   "status": "partial",
   "theorems": [
    "Verif.C120_T_violated",
    "Verif.C120_build_partial",
    "Verif.C120_dyadic_partial",
    "Verif.C120_log2_int",
    "Verif.C120_log2_partial",
    "Verif.C120_mid_angle",
    "Verif.C120_periodize",
    "Verif.C120_stride_violated"
   ],
   "note": "Proved for integers (C120_log2_int, C120_log2_partial, C120_build_partial), for the 2-D indices (C120_periodize, C120_mid_angle) and for filters whose upper bound is not within 2^-43 of a power of two (C120_dyadic_partial).  Violated for a double T just below a power of two: T = 8 - 2^-50 gives log2_T = 3, so 2**log2_T exceeds T (C120_T_violated), and for huge strides: 2**60 + 1 passes for a power of two (C120_stride_violated)."
  },
  {
   "property": "C121",
   "status": "proved",
   "theorems": [
    "Verif.C121_exact",
    "Verif.C121_nonneg"
   ],
   "note": "C121_nonneg, C121_exact.  The tolerance is the truncation of the periodised Gaussian low-pass filter, as in C116; for J=3, J_fr=2, Q=8 and 1000 samples in [-1, 1] it is below 1e-15."
  },
  {
   "property": "C122",
   "status": "proved",
   "theorems": [
    "Verif.C122_array",
    "Verif.C122_averaged",
    "Verif.C122_averaged_sharp",
    "Verif.C122_dict",
    "Verif.C122_returns",
    "Verif.C122_unaveraged",
    "Verif.C122_unaveraged_sharp"
   ],
   "note": "C122_returns, C122_averaged, C122_unaveraged; C122_averaged_sharp, C122_unaveraged_sharp give one constant for all paths.  The accuracy of the operations is a hypothesis (Rounded.Accurate); correctly rounded double-precision results meet it with delta = 2^-50 (ofFloat_accurate).  Overflow, underflow and nan are outside the hypothesis.  The condition on the step is that of C112."
  },
  {
   "property": "C123",
   "status": "proved",
   "theorems": [
    "Verif.C123_array",
    "Verif.C123_euclidean",
    "Verif.C123_returns"
   ],
   "note": "C123_returns, C123_euclidean, C123_array.  The accuracy of the operations is a hypothesis (Rounded2.Accurate); correctly rounded double-precision results meet it with delta = 2^-50 (ofFloat2_accurate).  Overflow, underflow and nan are outside the hypothesis."
  },
  {
   "property": "C124",
   "status": "proved",
   "theorems": [
    "Verif.C124_holder",
    "Verif.C124_returns",
    "Verif.C124_root"
   ],
   "note": "C124_returns, C124_root, C124_holder.  The accuracy of the operations is a hypothesis (Rounded3.Accurate); correctly rounded double-precision results meet it with delta = eta = 2^-50 (ofFloat3_accurate).  Overflow, underflow and nan are outside the hypothesis."
  },
  {
   "property": "C125",
   "status": "partial",
   "theorems": [
    "Verif.C125_1d_partial",
    "Verif.C125_again_violated",
    "Verif.C125_doubled",
    "Verif.C125_idempotent_partial",
    "Verif.C125_jtfs",
    "Verif.C125_oversampling_violated"
   ],
   "note": "Proved without oversampling (C125_1d_partial, C125_idempotent_partial) and for time-frequency scattering (C125_jtfs).  False with oversampling > 0: build stores its own stride in _stride and a second call refuses it with a ValueError (C125_oversampling_violated, C125_again_violated), except when the averaging scale has doubled in between (C125_doubled).  Torch and TensorFlow classes are not covered."
  },
  {
   "property": "C126",
   "status": "proved",
   "theorems": [
    "Verif.C126_error",
    "Verif.C126_input",
    "Verif.C126_returns",
    "Verif.C126_sharp"
   ],
   "note": "C126_returns (both directions) and C126_error.  The rows of an array carry no key, so for array output each row satisfies the bound of the zeroth order or that of the others.  Numpy backend; the filters and the padding are exact."
  },
  {
   "property": "C127",
   "status": "partial",
   "theorems": [
    "Verif.C127_bank",
    "Verif.C127_default_T_fails",
    "Verif.C127_minus_one_3d",
    "Verif.C127_natural",
    "Verif.C127_natural_2d",
    "Verif.C127_natural_3d",
    "Verif.C127_rejected_2d_partial",
    "Verif.C127_rejected_3d_partial",
    "Verif.C127_returns",
    "Verif.C127_stride_fails"
   ],
   "note": "Holds in 2-D (C127_rejected_2d_partial, by TypeError or RuntimeError) and in 3-D below -1 (C127_rejected_3d_partial).  False in 1-D: the object is always built; with the default T and stride every call raises TypeError (C127_default_T_fails), with T=None and another stride than 1 no call returns (C127_stride_fails), otherwise calls return Q1 coefficients (C127_returns) with a bank of Q-1 wavelets of scale 0 (C127_bank).  False in 3-D for J=-1: built, and no call returns (C127_minus_one_3d).  C127_natural, C127_natural_2d, C127_natural_3d: on natural numbers the models agree with the earlier ones.  Numpy backend; time-frequency scattering with negative J is not modelled."
  },
  {
   "property": "C128",
   "status": "proved",
   "theorems": [
    "Verif.C128_bounded",
    "Verif.C128_lipschitz",
    "Verif.C128_local",
    "Verif.C128_sharp"
   ],
   "note": "C128_lipschitz (all output types; in an array the bound of a row is one of the two); C128_bounded for out_type='list'.  C126_input extends the rounding bounds of C126 to computed signals that are off by k roundings.  C128_sharp, C128_local and C126_sharp replace the powers of two of the strides by 1.02 and 1.001 when the strides are at most T and F and Q2 <= 2^J."
  },
  {
   "property": "C129",
   "status": "proved",
   "theorems": [
    "Verif.C129_multiple",
    "Verif.C129_shift"
   ],
   "note": "C129_shift; C129_multiple for multiples of 2^(J-1).  Stated for the coefficients on the padded signal, before the crop of assemble; a translation of the unpadded signal differs from it at the borders."
  },
  {
   "property": "C130",
   "status": "partial",
   "theorems": [
    "Verif.C130_construction",
    "Verif.C130_natural_partial",
    "Verif.C130_violated"
   ],
   "note": "False: with F=None, F='global' or F=0 the constructor returns for every negative J_fr (C130_construction); then no call returns, and with numpy a call that would return for J_fr=0 raises TypeError (C130_violated).  With a positive number F the constructor may also raise ValueError, when the padded number of rows is not divisible by the powers of two up to F.  C130_natural_partial: for natural J_fr the model is that of JArgs."
  },
  {
   "property": "C131",
   "status": "proved",
   "theorems": [
    "Verif.C131_positive",
    "Verif.C131_rejected"
   ],
   "note": "C131_rejected, C131_positive.  The other 1-D theorems are about natural numbers as shape; they say nothing about the code when this number is 0."
  },
  {
   "property": "C132",
   "status": "proved",
   "theorems": [
    "Verif.C132_bounded",
    "Verif.C132_euclidean",
    "Verif.C132_joint",
    "Verif.C132_nonneg",
    "Verif.C132_shift"
   ],
   "note": "C132_euclidean, C132_shift, C132_nonneg, C132_bounded, C132_joint.  Consequences of C97, C117, C118 and C128 through C59 and C80; exact real arithmetic, so rounding of torch is not covered."
  }
 ]
}