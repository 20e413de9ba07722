{
 "claims": [
  {
   "property": "C01",
   "status": "proved",
   "theorems": [
    "StdNN.C01_output_length",
    "StdNN.C01_total"
   ],
   "note": ""
  },
  {
   "property": "C02",
   "status": "proved",
   "theorems": [
    "StdNN.C02_taps",
    "StdNN.C02_sample",
    "StdNN.C02_extremes"
   ],
   "note": ""
  },
  {
   "property": "C03",
   "status": "proved",
   "theorems": [
    "StdNN.C03_constructor"
   ],
   "note": ""
  },
  {
   "property": "C04",
   "status": "proved",
   "theorems": [
    "StdNN.C04_valid_padding_least",
    "StdNN.C04_valid_padding_length"
   ],
   "note": ""
  },
  {
   "property": "C05",
   "status": "proved",
   "theorems": [
    "StdNN.C05_same_padding_throws",
    "StdNN.C05_same_padding_length",
    "StdNN.C05_same_padding_stride_one",
    "StdNN.C05_not_ceil"
   ],
   "note": ""
  },
  {
   "property": "C06",
   "status": "partial",
   "theorems": [
    "StdNN.C06_no_silent_wrap_partial",
    "StdNN.C06_wraps_padding",
    "StdNN.C06_wraps_patch",
    "StdNN.C06_effect"
   ],
   "note": "False for unsigned dimension types (the default uint32_t): two witnesses. C06_effect gives the exact result for all arguments of every unsigned type (the true sizes modulo 2^bits). Holds for signed types, where overflow is undefined behaviour rather than a wrong value; and for unsigned types when nothing overflows (C01)."
  },
  {
   "property": "C07",
   "status": "proved",
   "theorems": [
    "StdNN.C07_per_axis",
    "StdNN.C07_ksize",
    "StdNN.C07_constructor_throws",
    "StdNN.C07_defaults"
   ],
   "note": "Any rank."
  },
  {
   "property": "C08",
   "status": "proved",
   "theorems": [
    "StdNN.C08_image_positions",
    "StdNN.C08_filter_positions",
    "StdNN.C08_transpose",
    "StdNN.C08_injective"
   ],
   "note": ""
  },
  {
   "property": "C09",
   "status": "proved",
   "theorems": [
    "StdNN.C09_conv_shape",
    "StdNN.C09_channel_mismatch",
    "StdNN.C09_not_sampled",
    "StdNN.C09_zero_rejected",
    "StdNN.C09_zero_rejected_width",
    "StdNN.C09_defaults"
   ],
   "note": ""
  },
  {
   "property": "C10",
   "status": "proved",
   "theorems": [
    "StdNN.C10_pool_shape",
    "StdNN.C10_rejects",
    "StdNN.C10_defaults",
    "StdNN.C10_zero_rejected"
   ],
   "note": ""
  },
  {
   "property": "C11",
   "status": "proved",
   "theorems": [
    "StdNN.C11_col2im_inverts",
    "StdNN.C11_rejects",
    "StdNN.C11_col2im1d_inverts",
    "StdNN.C11_rejects1d"
   ],
   "note": ""
  },
  {
   "property": "C12",
   "status": "proved",
   "theorems": [
    "StdNN.C12_gradient_shape",
    "StdNN.C12_gradient_throws",
    "StdNN.C12_check_shape"
   ],
   "note": "For an arbitrary inference function of the differentiated operator."
  },
  {
   "property": "C13",
   "status": "proved",
   "theorems": [
    "StdNN.C13_unary",
    "StdNN.C13_binary",
    "StdNN.C13_binary_reduce",
    "StdNN.C13_axpy"
   ],
   "note": ""
  },
  {
   "property": "C14",
   "status": "proved",
   "theorems": [
    "StdNN.C14_concat",
    "StdNN.C14_wraps",
    "StdNN.C14_rejects",
    "StdNN.C14_channel"
   ],
   "note": "C14_wraps: beyond 2^32 channels the sum wraps."
  },
  {
   "property": "C15",
   "status": "proved",
   "theorems": [
    "StdNN.C15_flatten_shape",
    "StdNN.C15_flatten_index",
    "StdNN.C15_as_matrix",
    "StdNN.C15_copy_flatten"
   ],
   "note": ""
  },
  {
   "property": "C16",
   "status": "proved",
   "theorems": [
    "StdNN.C16_mm",
    "StdNN.C16_mmt",
    "StdNN.C16_mtm",
    "StdNN.C16_mv",
    "StdNN.C16_vm"
   ],
   "note": ""
  },
  {
   "property": "C17",
   "status": "proved",
   "theorems": [
    "StdNN.C17_mm",
    "StdNN.C17_mmt",
    "StdNN.C17_mtm",
    "StdNN.C17_mv",
    "StdNN.C17_vm"
   ],
   "note": ""
  },
  {
   "property": "C18",
   "status": "proved",
   "theorems": [
    "StdNN.C18_mmt",
    "StdNN.C18_mtm",
    "StdNN.C18_mv",
    "StdNN.C18_vm"
   ],
   "note": ""
  },
  {
   "property": "C19",
   "status": "proved",
   "theorems": [
    "StdNN.C19_mm",
    "StdNN.C19_mmt",
    "StdNN.C19_mtm",
    "StdNN.C19_mv",
    "StdNN.C19_vm"
   ],
   "note": "Dimensions must be at least 1 (netlib rejects zero leading dimensions) and fit int; vm needs commutative multiplication."
  },
  {
   "property": "C20",
   "status": "proved",
   "theorems": [
    "StdNN.C20_assoc",
    "StdNN.C20_distrib"
   ],
   "note": ""
  },
  {
   "property": "C21",
   "status": "proved",
   "theorems": [
    "StdNN.C21_pointwise",
    "StdNN.C21_relu",
    "StdNN.C21_add",
    "StdNN.C21_sub",
    "StdNN.C21_mul",
    "StdNN.C21_axpy",
    "StdNN.C21_identity",
    "StdNN.C21_store_cells"
   ],
   "note": "Flat-memory model: the output may coincide with any input."
  },
  {
   "property": "C22",
   "status": "proved",
   "theorems": [
    "StdNN.C22_bias_hw",
    "StdNN.C22_bias_nhwc",
    "StdNN.C22_bias_nchw",
    "StdNN.C22_shape"
   ],
   "note": ""
  },
  {
   "property": "C23",
   "status": "proved",
   "theorems": [
    "StdNN.C23_bias_layout"
   ],
   "note": ""
  },
  {
   "property": "C24",
   "status": "proved",
   "theorems": [
    "StdNN.C24_to_channels_first",
    "StdNN.C24_to_channels_last",
    "StdNN.C24_inverse"
   ],
   "note": ""
  },
  {
   "property": "C25",
   "status": "proved",
   "theorems": [
    "StdNN.C25_concat_nchw",
    "StdNN.C25_concat_nhwc"
   ],
   "note": ""
  },
  {
   "property": "C26",
   "status": "proved",
   "theorems": [
    "StdNN.C26_im2col_hwrs",
    "StdNN.C26_im2col_rshw",
    "StdNN.C26_im2col_hwrsc",
    "StdNN.C26_channel_mismatch",
    "StdNN.C26_im2col1d"
   ],
   "note": "Patches against the specification `window`, for every accepted geometry."
  },
  {
   "property": "C27",
   "status": "proved",
   "theorems": [
    "StdNN.C27_idx_map",
    "StdNN.C27_limit"
   ],
   "note": "Index-map variant equals the direct one up to 2^31 elements per image; C27_limit shows the bound is sharp."
  },
  {
   "property": "C28",
   "status": "proved",
   "theorems": [
    "StdNN.C28_col2im",
    "StdNN.C28_col2im1d"
   ],
   "note": ""
  },
  {
   "property": "C29",
   "status": "proved",
   "theorems": [
    "StdNN.C29_adjoint",
    "StdNN.C29_adjoint1d"
   ],
   "note": "Over any semiring."
  },
  {
   "property": "C30",
   "status": "proved",
   "theorems": [
    "StdNN.C30_multiplicity",
    "StdNN.C30_tiling"
   ],
   "note": ""
  },
  {
   "property": "C31",
   "status": "proved",
   "theorems": [
    "StdNN.C31_conv_nhwc"
   ],
   "note": "Any semiring; image size up to 2^31 elements, the range of the index map (see C27_limit)."
  },
  {
   "property": "C32",
   "status": "proved",
   "theorems": [
    "StdNN.C32_conv_nchw"
   ],
   "note": "Any commutative semiring."
  },
  {
   "property": "C33",
   "status": "proved",
   "theorems": [
    "StdNN.C33_layouts_agree"
   ],
   "note": ""
  },
  {
   "property": "C34",
   "status": "proved",
   "theorems": [
    "StdNN.C34_linear_image",
    "StdNN.C34_linear_filter",
    "StdNN.C34_linear_nchw",
    "StdNN.C34_batch"
   ],
   "note": ""
  },
  {
   "property": "C35",
   "status": "proved",
   "theorems": [
    "StdNN.C35_conv1d",
    "StdNN.C35_order",
    "StdNN.C35_conv1d_im2col",
    "StdNN.C35_shape"
   ],
   "note": ""
  },
  {
   "property": "C36",
   "status": "proved",
   "theorems": [
    "StdNN.C36_max_pool",
    "StdNN.C36_max_pool_hwc",
    "StdNN.C36_lowest",
    "StdNN.C36_channel_mismatch"
   ],
   "note": "Ordered element types without NaN; C36_lowest covers pixels below numeric_limits::lowest."
  },
  {
   "property": "C37",
   "status": "proved",
   "theorems": [
    "StdNN.C37_mean_pool",
    "StdNN.C37_order",
    "StdNN.C37_order_hwc"
   ],
   "note": "C37_order is bit exact for any addition and division."
  },
  {
   "property": "C38",
   "status": "partial",
   "theorems": [
    "StdNN.C38_int_mean_partial",
    "StdNN.C38_effect",
    "StdNN.C38_negative_mean",
    "StdNN.C38_empty_window"
   ],
   "note": "False as stated: a negative sum is divided as an unsigned number (C38_negative_mean) and an empty window divides by zero (C38_empty_window). C38_effect gives the exact value for sums of either sign, C38_int_mean_partial the claim for non-negative sums."
  },
  {
   "property": "C39",
   "status": "partial",
   "theorems": [
    "StdNN.C39_per_image_partial",
    "StdNN.C39_per_channel_partial",
    "StdNN.C39_effect",
    "StdNN.C39_padding_dropped",
    "StdNN.C39_accumulators"
   ],
   "note": "False as stated: the four-dimensional operators drop the padding (C39_padding_dropped); C39_effect says what they compute instead for every padding; the partial theorems hold without padding in front."
  },
  {
   "property": "C40",
   "status": "proved",
   "theorems": [
    "StdNN.C40_layouts_agree"
   ],
   "note": ""
  },
  {
   "property": "C41",
   "status": "proved",
   "theorems": [
    "StdNN.C41_monotone",
    "StdNN.C41_layer",
    "StdNN.C41_layer_nonempty"
   ],
   "note": ""
  },
  {
   "property": "C42",
   "status": "proved",
   "theorems": [
    "StdNN.C42_left",
    "StdNN.C42_right"
   ],
   "note": ""
  },
  {
   "property": "C43",
   "status": "proved",
   "theorems": [
    "StdNN.C43_add",
    "StdNN.C43_mul"
   ],
   "note": ""
  },
  {
   "property": "C44",
   "status": "proved",
   "theorems": [
    "StdNN.C44_hw",
    "StdNN.C44_nhwc",
    "StdNN.C44_nchw_input"
   ],
   "note": ""
  },
  {
   "property": "C45",
   "status": "proved",
   "theorems": [
    "StdNN.C45_conv_grad_image"
   ],
   "note": "Any commutative semiring."
  },
  {
   "property": "C46",
   "status": "proved",
   "theorems": [
    "StdNN.C46_conv_grad_filter"
   ],
   "note": "Any commutative semiring."
  },
  {
   "property": "C47",
   "status": "proved",
   "theorems": [
    "StdNN.C47_relu_grad",
    "StdNN.C47_relu_derivative"
   ],
   "note": ""
  },
  {
   "property": "C48",
   "status": "proved",
   "theorems": [
    "StdNN.C48_formula",
    "StdNN.C48_formula_vector",
    "StdNN.C48_gradient"
   ],
   "note": "The gradient theorem is over the reals with the real exponential."
  },
  {
   "property": "C49",
   "status": "proved",
   "theorems": [
    "StdNN.C49_formula",
    "StdNN.C49_gradient"
   ],
   "note": "Over the reals with the real logarithm."
  },
  {
   "property": "C50",
   "status": "proved",
   "theorems": [
    "StdNN.C50_chain"
   ],
   "note": "Over any field; only needs non-zero predictions, which softmax guarantees (C51_probability)."
  },
  {
   "property": "C51",
   "status": "proved",
   "theorems": [
    "StdNN.C51_order",
    "StdNN.C51_value",
    "StdNN.C51_probability"
   ],
   "note": "C51_order is bit exact for any exp and arithmetic."
  },
  {
   "property": "C52",
   "status": "proved",
   "theorems": [
    "StdNN.C52_shift",
    "StdNN.C52_order",
    "StdNN.C52_permutation",
    "StdNN.C52_rows"
   ],
   "note": ""
  },
  {
   "property": "C53",
   "status": "proved",
   "theorems": [
    "StdNN.C53_relu_laws"
   ],
   "note": ""
  },
  {
   "property": "C54",
   "status": "proved",
   "theorems": [
    "StdNN.C54_order",
    "StdNN.C54_value",
    "StdNN.C54_gibbs"
   ],
   "note": ""
  },
  {
   "property": "C55",
   "status": "proved",
   "theorems": [
    "StdNN.C55_nhwc",
    "StdNN.C55_nchw",
    "StdNN.C55_bias_nhwc",
    "StdNN.C55_bias_nchw",
    "StdNN.C55_layouts_agree",
    "StdNN.C55_shape",
    "StdNN.C55_standardises"
   ],
   "note": ""
  },
  {
   "property": "C56",
   "status": "proved",
   "theorems": [
    "StdNN.C56_effect",
    "StdNN.C56_onehot",
    "StdNN.C56_narrowing"
   ],
   "note": "C56_narrowing shows that the representability hypothesis is needed."
  },
  {
   "property": "C57",
   "status": "proved",
   "theorems": [
    "StdNN.C57_argmax",
    "StdNN.C57_inverse"
   ],
   "note": ""
  },
  {
   "property": "C58",
   "status": "proved",
   "theorems": [
    "StdNN.C58_top",
    "StdNN.C58_shape",
    "StdNN.C58_deterministic",
    "StdNN.C58_wrapped",
    "StdNN.isSort_mergeSort"
   ],
   "note": "For every sorting function that meets the specification of std::sort."
  },
  {
   "property": "C59",
   "status": "proved",
   "theorems": [
    "StdNN.C59_similarity",
    "StdNN.C59_shape"
   ],
   "note": ""
  },
  {
   "property": "C60",
   "status": "proved",
   "theorems": [
    "StdNN.C60_min",
    "StdNN.C60_max",
    "StdNN.C60_empty",
    "StdNN.C60_span",
    "StdNN.C60_sum",
    "StdNN.C60_mean",
    "StdNN.C60_variance",
    "StdNN.C60_adj_diff_sum",
    "StdNN.C60_std",
    "StdNN.C60_scalar_summaries"
   ],
   "note": "Ordered fields; standard deviation over the reals."
  },
  {
   "property": "C61",
   "status": "proved",
   "theorems": [
    "StdNN.C61_fill",
    "StdNN.C61_uniform"
   ],
   "note": ""
  },
  {
   "property": "C62",
   "status": "proved",
   "theorems": [
    "StdNN.C62_output",
    "StdNN.C62_terminates",
    "StdNN.C62_seed",
    "StdNN.C62_seeded",
    "StdNN.C62_bound"
   ],
   "note": ""
  },
  {
   "property": "C63",
   "status": "proved",
   "theorems": [
    "StdNN.C63_bitwise"
   ],
   "note": "Every width of at least 8 bits; the tensor is given by its bytes."
  },
  {
   "property": "C64",
   "status": "proved",
   "theorems": [
    "StdNN.C64_incremental",
    "StdNN.C64_resume",
    "StdNN.C64_affine"
   ],
   "note": ""
  },
  {
   "property": "C65",
   "status": "proved",
   "theorems": [
    "StdNN.C65_burst",
    "StdNN.C65_byte",
    "StdNN.C65_polynomials",
    "StdNN.C65_needs_top_bit"
   ],
   "note": ""
  },
  {
   "property": "C66",
   "status": "proved",
   "theorems": [
    "StdNN.C66_remainder",
    "StdNN.C66_regPoly_injective",
    "StdNN.C66_generators"
   ],
   "note": ""
  },
  {
   "property": "C67",
   "status": "proved",
   "theorems": [
    "StdNN.C67_format",
    "StdNN.C67_involution",
    "StdNN.C67_big_endian_host"
   ],
   "note": "Hosts of either byte order; on a big endian host the dimensions come out in the other order (C67_big_endian_host)."
  },
  {
   "property": "C68",
   "status": "proved",
   "theorems": [
    "StdNN.C68_round_trip",
    "StdNN.C68_typed"
   ],
   "note": ""
  },
  {
   "property": "C69",
   "status": "proved",
   "theorems": [
    "StdNN.C69_missing",
    "StdNN.C69_magic",
    "StdNN.C69_mismatch",
    "StdNN.C69_accepts"
   ],
   "note": "For files that hold at least the header; shorter files are the subject of C70."
  },
  {
   "property": "C70",
   "status": "partial",
   "theorems": [
    "StdNN.C70_effect",
    "StdNN.C70_mixed",
    "StdNN.C70_header_partial"
   ],
   "note": "False as stated: a file cut inside the data is accepted and old values stay in the tensor (C70_effect, C70_mixed). C70_header_partial: files cut inside the header are not read normally."
  },
  {
   "property": "C71",
   "status": "proved",
   "theorems": [
    "StdNN.C71_files",
    "StdNN.C71_read",
    "StdNN.C71_refused",
    "StdNN.C71_protected"
   ],
   "note": ""
  },
  {
   "property": "C72",
   "status": "proved",
   "theorems": [
    "StdNN.C72_index",
    "StdNN.C72_read",
    "StdNN.C72_missing"
   ],
   "note": "Members of up to 2^31 - 512 bytes."
  },
  {
   "property": "C73",
   "status": "partial",
   "theorems": [
    "StdNN.C73_blocks_partial",
    "StdNN.C73_terminates",
    "StdNN.C73_diverges",
    "StdNN.C73_diverges_witness",
    "StdNN.C73_seek_fails",
    "StdNN.C73_overflow",
    "StdNN.C73_overflow_witness",
    "StdNN.C73_undefined",
    "StdNN.C73_throws",
    "StdNN.C73_hangs",
    "StdNN.C73_blocks_or_hangs"
   ],
   "note": "Termination for non-negative sizes (and for negative ones that lead forward) is proved. The claim about positions is false for negative sizes in general: the code seeks before the start of the file (C73_seek_fails) or loops for ever (C73_diverges). Sizes above 2^31 - 512 overflow int (C73_overflow). For every file: indexing is undefined only for a size that does not fit (C73_undefined), throws only for a wrong file size or a block without a number (C73_throws), and if the stream ever fails it never ends (C73_hangs), so the positions are right or indexing hangs (C73_blocks_or_hangs)."
  },
  {
   "property": "C74",
   "status": "proved",
   "theorems": [
    "StdNN.C74_odd_size"
   ],
   "note": ""
  },
  {
   "property": "C75",
   "status": "proved",
   "theorems": [
    "StdNN.NameScope.C75_with",
    "StdNN.C75_fresh",
    "StdNN.NameScope.C75_restores",
    "StdNN.NameScope.C75_join",
    "StdNN.NameScope.C75_empty_prefix"
   ],
   "note": ""
  },
  {
   "property": "C76",
   "status": "proved",
   "theorems": [
    "StdNN.Models.C76_sequential",
    "StdNN.Models.C76_stops",
    "StdNN.C76_with_init",
    "StdNN.C76_omitted_init"
   ],
   "note": ""
  },
  {
   "property": "C77",
   "status": "proved",
   "theorems": [
    "StdNN.C77_dense",
    "StdNN.C77_narrowed"
   ],
   "note": "For pointwise activations (none, relu and every pointwise operator). C77_narrowed: a unit count above 2^32 - 1 is reduced."
  },
  {
   "property": "C78",
   "status": "proved",
   "theorems": [
    "StdNN.C78_conv_nhwc",
    "StdNN.C78_conv_nchw",
    "StdNN.C78_conv_no_bias",
    "StdNN.C78_same_padding",
    "StdNN.C78_valid_padding",
    "StdNN.C78_fixed_padding",
    "StdNN.C78_defaults"
   ],
   "note": "For pointwise activations."
  },
  {
   "property": "C79",
   "status": "partial",
   "theorems": [
    "StdNN.C79_rejects",
    "StdNN.C79_max_partial",
    "StdNN.C79_mean_partial",
    "StdNN.C79_default"
   ],
   "note": "False as stated: C79_rejects shows the default layer throws whenever a side is not a multiple of the kernel. The partial theorems give the exact result for every other size."
  },
  {
   "property": "C80",
   "status": "proved",
   "theorems": [
    "StdNN.C80_matmul",
    "StdNN.C80_unary",
    "StdNN.C80_binary",
    "StdNN.C80_softmax",
    "StdNN.C80_xentropy",
    "StdNN.C80_bias",
    "StdNN.C80_batch_norm",
    "StdNN.C80_batch_norm_with_bias",
    "StdNN.C80_transpose",
    "StdNN.C80_copy_flatten",
    "StdNN.C80_concat",
    "StdNN.C80_mean",
    "StdNN.C80_argmax",
    "StdNN.C80_onehot",
    "StdNN.C80_similarity",
    "StdNN.C80_conv_nhwc",
    "StdNN.C80_conv_nchw",
    "StdNN.C80_pool_hw",
    "StdNN.C80_pool",
    "StdNN.C80_im2col",
    "StdNN.C80_im2col_hwrsc",
    "StdNN.C80_im2col_nhwrsc",
    "StdNN.C80_col2im",
    "StdNN.C80_im2col1d",
    "StdNN.C80_conv1d",
    "StdNN.C80_grad_matmul",
    "StdNN.C80_grad_binary",
    "StdNN.C80_grad_relu",
    "StdNN.C80_grad_softmax",
    "StdNN.C80_grad_xentropy",
    "StdNN.C80_grad_bias",
    "StdNN.C80_grad_conv",
    "StdNN.C80_cast",
    "StdNN.C80_top",
    "StdNN.C80_crc",
    "StdNN.C80_col2im1d",
    "StdNN.C80_grad_copy_flatten",
    "StdNN.C80_int_mean_pool_undefined"
   ],
   "note": "One theorem per operator. Integer mean pooling is the exception (C80_int_mean_pool_undefined)."
  },
  {
   "property": "C81",
   "status": "proved",
   "theorems": [
    "StdNN.C81_not_in_place",
    "StdNN.C81_effect",
    "StdNN.C81_when_right"
   ],
   "note": ""
  },
  {
   "property": "C82",
   "status": "proved",
   "theorems": [
    "StdNN.C82_mean",
    "StdNN.C82_int_negative"
   ],
   "note": ""
  },
  {
   "property": "C83",
   "status": "partial",
   "theorems": [
    "StdNN.C83_effect",
    "StdNN.C83_fits_partial"
   ],
   "note": "False as stated: the stream is never checked after writing (C83_effect)."
  },
  {
   "property": "C84",
   "status": "partial",
   "theorems": [
    "StdNN.C84_dense_owned_partial",
    "StdNN.C84_conv_owned_partial",
    "StdNN.C84_conv_no_bias_owned_partial",
    "StdNN.C84_pool_owned_partial",
    "StdNN.C84_identity_owned_partial",
    "StdNN.C84_activation_owned_partial",
    "StdNN.C84_concat_owned_partial",
    "StdNN.C84_bn_owned_partial",
    "StdNN.C84_composed_owned_partial",
    "StdNN.C84_sequential_owned_partial",
    "StdNN.C84_composed_leaks",
    "StdNN.C84_bn_init_leaks",
    "StdNN.C84_dense_leaks",
    "StdNN.C84_bias_init_leaks",
    "StdNN.C84_conv_leaks",
    "StdNN.C84_weight_init_leaks",
    "StdNN.C84_filter_init_leaks",
    "StdNN.C84_refused_image_leaks"
   ],
   "note": "False as stated: results travel in raw pointers, so an exception after the first allocation leaks (C84_*_leaks). The partial theorems give the count for calls that return and bound it otherwise; the leak theorems give the exact count for exceptions of the initialisers, of the padding policy and of the shape function."
  },
  {
   "property": "C85",
   "status": "partial",
   "theorems": [
    "StdNN.C85_dense_partial",
    "StdNN.C85_conv_nhwc_partial",
    "StdNN.C85_conv_nchw_partial",
    "StdNN.C85_relu_dense_partial",
    "StdNN.C85_relu_conv_nhwc_partial",
    "StdNN.C85_relu_conv_nchw_partial",
    "StdNN.C85_softmax",
    "StdNN.Layers.C85_softmax_effect"
   ],
   "note": "True for pointwise activations; false for softmax, which the layer runs in place (C85_softmax)."
  },
  {
   "property": "C86",
   "status": "proved",
   "theorems": [
    "StdNN.C86_bn_nhwc",
    "StdNN.C86_bn_nchw"
   ],
   "note": "For pointwise activations."
  },
  {
   "property": "C87",
   "status": "proved",
   "theorems": [
    "StdNN.C87_padding_nhwc",
    "StdNN.C87_padding_nchw",
    "StdNN.C87_padding_1d"
   ],
   "note": ""
  },
  {
   "property": "C88",
   "status": "proved",
   "theorems": [
    "StdNN.C88_dilation_nhwc",
    "StdNN.C88_dilation_nchw",
    "StdNN.C88_dilation_1d"
   ],
   "note": ""
  },
  {
   "property": "C89",
   "status": "proved",
   "theorems": [
    "StdNN.C89_stride_nhwc",
    "StdNN.C89_stride_nchw",
    "StdNN.C89_stride_1d"
   ],
   "note": ""
  },
  {
   "property": "C90",
   "status": "proved",
   "theorems": [
    "StdNN.C90_crop_nhwc",
    "StdNN.C90_crop_nchw"
   ],
   "note": ""
  },
  {
   "property": "C91",
   "status": "proved",
   "theorems": [
    "StdNN.C91_conv_order",
    "StdNN.C91_conv_order_nchw"
   ],
   "note": "No law of arithmetic is assumed."
  },
  {
   "property": "C92",
   "status": "proved",
   "theorems": [
    "StdNN.C92_one_by_one",
    "StdNN.C92_full_kernel"
   ],
   "note": "No law of arithmetic is assumed."
  },
  {
   "property": "C93",
   "status": "proved",
   "theorems": [
    "StdNN.C93_matmul",
    "StdNN.C93_mmt",
    "StdNN.C93_mtm",
    "StdNN.C93_conv"
   ],
   "note": "Rounding model: relative error at most u per operation, no underflow; 24-bit truncation is an instance (example in Props/Rounding)."
  },
  {
   "property": "C94",
   "status": "proved",
   "theorems": [
    "StdNN.C94_softmax_range",
    "StdNN.C94_softmax_masks"
   ],
   "note": "Rounding model: any monotone rounding of the extended reals that keeps 0 and 1."
  },
  {
   "property": "C95",
   "status": "proved",
   "theorems": [
    "StdNN.C95_loss_finite"
   ],
   "note": "exp and log enter through their range only."
  },
  {
   "property": "C96",
   "status": "proved",
   "theorems": [
    "StdNN.C96_relu",
    "StdNN.C96_max_pool",
    "StdNN.C96_max_pool_hw",
    "StdNN.C96_max_pool_layer",
    "StdNN.C96_argmax"
   ],
   "note": ""
  },
  {
   "property": "C97",
   "status": "proved",
   "theorems": [
    "StdNN.C97_shape",
    "StdNN.C97_loss",
    "StdNN.C97_step",
    "StdNN.C97_gradient"
   ],
   "note": "Over the reals; C97_gradient where no probability is clipped to eps."
  },
  {
   "property": "C98",
   "status": "proved",
   "theorems": [
    "StdNN.C98_accuracy",
    "StdNN.C98_test"
   ],
   "note": ""
  },
  {
   "property": "C99",
   "status": "proved",
   "theorems": [
    "StdNN.C99_load",
    "StdNN.C99_run",
    "StdNN.C99_zero"
   ],
   "note": "Over the reals."
  },
  {
   "property": "C100",
   "status": "proved",
   "theorems": [
    "StdNN.C100_load",
    "StdNN.C100_name",
    "StdNN.C100_refused",
    "StdNN.C100_truncated"
   ],
   "note": "Little-endian hosts. C100_truncated states the effect of short data."
  },
  {
   "property": "C101",
   "status": "proved",
   "theorems": [
    "StdNN.Vgg16.C101_run",
    "StdNN.Vgg16.C101_rejects",
    "StdNN.Vgg16.C101_ranking"
   ],
   "note": "Over the reals; the least number must not be positive."
  },
  {
   "property": "C102",
   "status": "proved",
   "theorems": [
    "StdNN.Vgg16.C102_lines",
    "StdNN.Vgg16.C102_every",
    "StdNN.Vgg16.C102_image"
   ],
   "note": "The OpenCV variant is not modelled."
  },
  {
   "property": "C103",
   "status": "proved",
   "theorems": [
    "StdNN.Vgg16.C103_same"
   ],
   "note": ""
  },
  {
   "property": "C104",
   "status": "proved",
   "theorems": [
    "StdNN.C104_nchw",
    "StdNN.C104_nhwc",
    "StdNN.C104_rejects"
   ],
   "note": "The two combinations of layout and number of operands that have a kernel."
  },
  {
   "property": "C105",
   "status": "proved",
   "theorems": [
    "StdNN.C105_owned",
    "StdNN.C105_runs",
    "StdNN.C105_add"
   ],
   "note": ""
  },
  {
   "property": "C106",
   "status": "proved",
   "theorems": [
    "StdNN.C106_nchw",
    "StdNN.C106_hw",
    "StdNN.C106_twice"
   ],
   "note": ""
  },
  {
   "property": "C107",
   "status": "proved",
   "theorems": [
    "StdNN.C107_nhwc",
    "StdNN.C107_nchw"
   ],
   "note": ""
  },
  {
   "property": "C108",
   "status": "proved",
   "theorems": [
    "StdNN.C108_dense"
   ],
   "note": ""
  },
  {
   "property": "C109",
   "status": "proved",
   "theorems": [
    "StdNN.C109_lookup"
   ],
   "note": ""
  },
  {
   "property": "C110",
   "status": "partial",
   "theorems": [
    "StdNN.C110_max_partial",
    "StdNN.C110_mean_partial",
    "StdNN.C110_valid",
    "StdNN.C110_rejects",
    "StdNN.C110_padding_misplaced",
    "StdNN.C110_max_effect",
    "StdNN.C110_mean_effect"
   ],
   "note": "False as stated: C110_padding_misplaced shows that padding in front of the image is treated as padding behind it. The partial theorems hold for every geometry without padding in front; the effect theorems say what the layer computes for every policy: it pools as if all padding were behind the image."
  },
  {
   "property": "C111",
   "status": "proved",
   "theorems": [
    "StdNN.C111_composed",
    "StdNN.C111_sequential",
    "StdNN.C111_one_by_one",
    "StdNN.C111_dense",
    "StdNN.C111_conv_nhwc",
    "StdNN.C111_conv_nchw",
    "StdNN.C111_pool",
    "StdNN.C111_max_pool",
    "StdNN.C111_mean_pool",
    "StdNN.C111_bn_nhwc",
    "StdNN.C111_bn_nchw",
    "StdNN.C111_activation",
    "StdNN.C111_softmax",
    "StdNN.Vgg16.C111_vgg16_features",
    "StdNN.Vgg16.C111_vgg16_classifier",
    "StdNN.Vgg16.C111_vgg16"
   ],
   "note": ""
  },
  {
   "property": "C112",
   "status": "proved",
   "theorems": [
    "StdNN.C112_cast",
    "StdNN.C112_any_rank",
    "StdNN.C112_round_trip",
    "StdNN.C112_twice"
   ],
   "note": ""
  },
  {
   "property": "C113",
   "status": "proved",
   "theorems": [
    "StdNN.C113_contractions",
    "StdNN.C113_ones",
    "StdNN.C113_total"
   ],
   "note": ""
  },
  {
   "property": "C114",
   "status": "proved",
   "theorems": [
    "StdNN.C114_max",
    "StdNN.C114_mean"
   ],
   "note": ""
  },
  {
   "property": "C115",
   "status": "proved",
   "theorems": [
    "StdNN.C115_monotone",
    "StdNN.C115_relu"
   ],
   "note": ""
  },
  {
   "property": "C116",
   "status": "proved",
   "theorems": [
    "StdNN.C116_channels_nhwc",
    "StdNN.C116_channels_nchw",
    "StdNN.C116_filters_nhwc",
    "StdNN.C116_filters_nchw"
   ],
   "note": ""
  },
  {
   "property": "C117",
   "status": "proved",
   "theorems": [
    "StdNN.C117_merge_nhwc",
    "StdNN.C117_merge_nchw",
    "StdNN.C117_merge_1d",
    "StdNN.C117_layers_nhwc",
    "StdNN.C117_layers_nchw"
   ],
   "note": ""
  },
  {
   "property": "C118",
   "status": "proved",
   "theorems": [
    "StdNN.C118_parameter",
    "StdNN.C118_file",
    "StdNN.C118_file_refused",
    "StdNN.C118_absent",
    "StdNN.C118_no_file",
    "StdNN.C118_saved",
    "StdNN.Vgg16.C118_image",
    "StdNN.Vgg16.C118_run",
    "StdNN.Vgg16.C118_incomplete"
   ],
   "note": ""
  },
  {
   "property": "C119",
   "status": "proved",
   "theorems": [
    "StdNN.C119_sums",
    "StdNN.C119_means",
    "StdNN.C119_pool"
   ],
   "note": "pooling without padding in front (see C110)"
  },
  {
   "property": "C120",
   "status": "proved",
   "theorems": [
    "StdNN.C120_compose",
    "StdNN.C120_dense",
    "StdNN.C120_conv_nhwc",
    "StdNN.C120_conv_nchw",
    "StdNN.C120_max_pool_nhwc",
    "StdNN.C120_max_pool_nchw",
    "StdNN.C120_argmax"
   ],
   "note": "max pooling without padding in front (see C110)"
  },
  {
   "property": "C121",
   "status": "proved",
   "theorems": [
    "StdNN.C121_undetected",
    "StdNN.C121_two_bits",
    "StdNN.C121_two_bits_usb",
    "StdNN.C121_two_bits_ieee",
    "StdNN.C121_two_bits_ecma",
    "StdNN.C121_odd",
    "StdNN.C121_odd_standard",
    "StdNN.C121_odd_missed",
    "StdNN.C121_residue",
    "StdNN.C121_residues"
   ],
   "note": ""
  },
  {
   "property": "C122",
   "status": "proved",
   "theorems": [
    "StdNN.C122_overwrites",
    "StdNN.C122_top",
    "StdNN.C122_top_keeps",
    "StdNN.C80_matmul",
    "StdNN.C80_unary",
    "StdNN.C80_binary",
    "StdNN.C80_softmax",
    "StdNN.C80_xentropy",
    "StdNN.C80_bias",
    "StdNN.C80_batch_norm",
    "StdNN.C80_batch_norm_with_bias",
    "StdNN.C80_transpose",
    "StdNN.C80_copy_flatten",
    "StdNN.C80_concat",
    "StdNN.C80_mean",
    "StdNN.C80_argmax",
    "StdNN.C80_onehot",
    "StdNN.C80_similarity",
    "StdNN.C80_conv_nhwc",
    "StdNN.C80_conv_nchw",
    "StdNN.C80_pool_hw",
    "StdNN.C80_pool",
    "StdNN.C80_im2col",
    "StdNN.C80_im2col_hwrsc",
    "StdNN.C80_im2col_nhwrsc",
    "StdNN.C80_col2im",
    "StdNN.C80_im2col1d",
    "StdNN.C80_conv1d",
    "StdNN.C80_grad_matmul",
    "StdNN.C80_grad_binary",
    "StdNN.C80_grad_relu",
    "StdNN.C80_grad_softmax",
    "StdNN.C80_grad_xentropy",
    "StdNN.C80_grad_bias",
    "StdNN.C80_grad_conv",
    "StdNN.C80_cast",
    "StdNN.C80_col2im1d",
    "StdNN.C80_grad_copy_flatten"
   ],
   "note": "The theorems C80_* state for each operator that one result is given for all previous contents; C122_overwrites restates the consequence."
  },
  {
   "property": "C123",
   "status": "proved",
   "theorems": [
    "StdNN.C123_reflect_nhwc",
    "StdNN.C123_reflect_nchw",
    "StdNN.C123_reflect_1d",
    "StdNN.C123_transpose_nhwc",
    "StdNN.C123_transpose_nchw",
    "StdNN.C123_max",
    "StdNN.C123_mean",
    "StdNN.C123_max_layer",
    "StdNN.C123_mean_layer"
   ],
   "note": ""
  },
  {
   "property": "C124",
   "status": "proved",
   "theorems": [
    "StdNN.C124_backprop",
    "StdNN.C124_loss",
    "StdNN.C124_matmul_left",
    "StdNN.C124_matmul_right",
    "StdNN.C124_bias_hw",
    "StdNN.C124_bias_nhwc",
    "StdNN.C124_bias_nchw",
    "StdNN.C124_bias_hw_param",
    "StdNN.C124_bias_nhwc_param",
    "StdNN.C124_conv_image",
    "StdNN.C124_conv_filter",
    "StdNN.C124_add",
    "StdNN.C124_mul",
    "StdNN.C124_flatten",
    "StdNN.C124_relu",
    "StdNN.C124_softmax",
    "StdNN.C124_xentropy",
    "StdNN.C124_classifier"
   ],
   "note": "over the real numbers; `Net` is the calling program, the library has no automatic differentiation"
  },
  {
   "property": "C125",
   "status": "proved",
   "theorems": [
    "StdNN.Examples.C125_mlp",
    "StdNN.Examples.C125_mlp_rejects",
    "StdNN.Examples.C125_convs",
    "StdNN.Examples.C125_layers",
    "StdNN.Examples.C125_layers_rejects",
    "StdNN.Examples.C125_any_memory"
   ],
   "note": "exact real arithmetic; values below the least number of the type excluded by hypothesis"
  },
  {
   "property": "C126",
   "status": "proved",
   "theorems": [
    "StdNN.C126_config",
    "StdNN.C126_conv1d",
    "StdNN.C126_im2col"
   ],
   "note": ""
  },
  {
   "property": "C127",
   "status": "proved",
   "theorems": [
    "StdNN.C127_softmax",
    "StdNN.C127_softmax_layer",
    "StdNN.C127_class",
    "StdNN.C127_xentropy",
    "StdNN.C127_bn_nhwc",
    "StdNN.C127_bn_nchw"
   ],
   "note": "no overflow or underflow, as in C93"
  },
  {
   "property": "C128",
   "status": "proved",
   "theorems": [
    "StdNN.C128_images_nhwc",
    "StdNN.C128_images_nchw",
    "StdNN.C128_filters_nhwc",
    "StdNN.C128_filters_nchw",
    "StdNN.C128_pool_nhwc",
    "StdNN.C128_pool_nchw"
   ],
   "note": "three operands in nhwc and two in nchw, which is what the code provides"
  },
  {
   "property": "C129",
   "status": "proved",
   "theorems": [
    "StdNN.C129_repeat",
    "StdNN.C129_descent",
    "StdNN.C129_minimum",
    "StdNN.C129_converges",
    "StdNN.C129_regret"
   ],
   "note": "exact real numbers; predictions not clipped, as a hypothesis on the run"
  },
  {
   "property": "C130",
   "status": "proved",
   "theorems": [
    "StdNN.C130_sums",
    "StdNN.C130_mm",
    "StdNN.C130_mmt",
    "StdNN.C130_mtm",
    "StdNN.C130_conv_nhwc",
    "StdNN.C130_conv_nchw",
    "StdNN.C130_compose",
    "StdNN.C130_dense",
    "StdNN.C130_conv_layer_nhwc",
    "StdNN.C130_conv_layer_nchw",
    "StdNN.C130_max_pool_nhwc",
    "StdNN.C130_max_pool_nchw",
    "StdNN.chop24_ints"
   ],
   "note": ""
  },
  {
   "property": "C131",
   "status": "proved",
   "theorems": [
    "StdNN.C131_mm",
    "StdNN.C131_mmt",
    "StdNN.C131_mtm",
    "StdNN.C131_conv_nhwc",
    "StdNN.C131_conv_nchw",
    "StdNN.C131_dense",
    "StdNN.C131_sums"
   ],
   "note": "not for 16-bit types, whose products are computed in int and may overflow it"
  },
  {
   "property": "C132",
   "status": "proved",
   "theorems": [
    "StdNN.C132_linear_sample",
    "StdNN.C132_constant_products",
    "StdNN.C132_col2im_counts",
    "StdNN.C132_concat_nhwc_perm",
    "StdNN.C132_concat_nchw_perm",
    "StdNN.C132_affine_grad",
    "StdNN.C132_pool_increasing",
    "StdNN.C132_softmax_constant",
    "StdNN.C132_softmax_pair",
    "StdNN.C132_xentropy_ones"
   ],
   "note": "the literal assertions of the tests are run on the model as examples in the same file"
  },
  {
   "property": "C133",
   "status": "proved",
   "theorems": [
    "StdNN.C133_mm",
    "StdNN.C133_mmt",
    "StdNN.C133_mtm",
    "StdNN.C133_sums",
    "StdNN.C133_conv_nhwc",
    "StdNN.C133_conv_nchw",
    "StdNN.C133_dense",
    "StdNN.C133_conv_enough",
    "StdNN.C133_enough",
    "StdNN.C133_order"
   ],
   "note": "elements carry a mark once an operation that led to them has overflowed; types narrower than int are promoted and not covered"
  },
  {
   "property": "C134",
   "status": "proved",
   "theorems": [
    "StdNN.C134_unsigned",
    "StdNN.C134_unsigned_right",
    "StdNN.C134_signed",
    "StdNN.C134_narrow",
    "StdNN.C134_narrow_right",
    "StdNN.C134_narrow_pow2",
    "StdNN.C134_narrow_wrong",
    "StdNN.C134_i32",
    "StdNN.C134_rows_unsigned",
    "StdNN.C134_rows_signed"
   ],
   "note": "int32_t is C38; row means of narrow signed types follow the same formula and are not stated apart"
  },
  {
   "property": "C135",
   "status": "proved",
   "theorems": [
    "StdNN.C135_rounding",
    "StdNN.C135_mm",
    "StdNN.C135_mmt",
    "StdNN.C135_mtm",
    "StdNN.C135_sums",
    "StdNN.C135_conv_nhwc",
    "StdNN.C135_conv_nchw",
    "StdNN.C135_dense",
    "StdNN.C135_float",
    "StdNN.C135_overflow",
    "StdNN.C135_underflow"
   ],
   "note": "the two zeros are not told apart; fused multiply-adds are in C138"
  },
  {
   "property": "C136",
   "status": "proved",
   "theorems": [
    "StdNN.C136_compose",
    "StdNN.C136_dense",
    "StdNN.C136_conv_nhwc",
    "StdNN.C136_conv_nchw",
    "StdNN.C136_max_pool_nhwc",
    "StdNN.C136_max_pool_nchw",
    "StdNN.C136_mean_pool_nhwc",
    "StdNN.C136_mean_pool_nchw",
    "StdNN.C136_reshape",
    "StdNN.C136_argmax"
   ],
   "note": "pooling windows without padding in front; the count of a mean must be exact in the format, i.e. below 2^p"
  },
  {
   "property": "C137",
   "status": "proved",
   "theorems": [
    "StdNN.C137_argmax",
    "StdNN.C137_onehot",
    "StdNN.C137_inverse",
    "StdNN.C137_mean",
    "StdNN.C137_mean_exact",
    "StdNN.C137_similarity",
    "StdNN.C137_shapes"
   ],
   "note": "softmax and cross entropy at any rank are C51 and C54"
  },
  {
   "property": "C138",
   "status": "proved",
   "theorems": [
    "StdNN.C138_exact_mm",
    "StdNN.C138_exact_mmt",
    "StdNN.C138_exact_mtm",
    "StdNN.C138_exact_mv",
    "StdNN.C138_exact_vm",
    "StdNN.C138_increasing",
    "StdNN.C138_mm",
    "StdNN.C138_mmt",
    "StdNN.C138_mtm",
    "StdNN.C138_mv",
    "StdNN.C138_vm",
    "StdNN.C138_engines",
    "StdNN.C138_integers",
    "StdNN.C138_differ"
   ],
   "note": "the library is external: any evaluation of the sum of products is allowed, but it must follow the netlib argument conventions; Strassen-like algorithms are not sums of these products and not covered"
  },
  {
   "property": "C139",
   "status": "proved",
   "theorems": [
    "StdNN.C139_filter",
    "StdNN.C139_image",
    "StdNN.C139_image_stride_one"
   ],
   "note": "nhwc images and rscd filters, for which the gradient operators exist; exact arithmetic (any semiring)"
  },
  {
   "property": "C140",
   "status": "proved",
   "theorems": [
    "StdNN.C140_unique",
    "StdNN.C140_usual",
    "StdNN.C140_no_number",
    "StdNN.C72_index"
   ],
   "note": ""
  },
  {
   "property": "C141",
   "status": "proved",
   "theorems": [
    "StdNN.C141_window_nhwc",
    "StdNN.C141_window_nchw",
    "StdNN.C141_crop_nhwc",
    "StdNN.C141_crop_nchw",
    "StdNN.C141_shift_nhwc",
    "StdNN.C141_shift_nchw",
    "StdNN.C141_pool_nhwc",
    "StdNN.C141_pool_nchw"
   ],
   "note": ""
  },
  {
   "property": "C142",
   "status": "proved",
   "theorems": [
    "StdNN.C142_conv_nhwc",
    "StdNN.C142_conv_nchw",
    "StdNN.C142_pool",
    "StdNN.C142_batch_norm",
    "StdNN.C142_activation",
    "StdNN.C142_composed",
    "StdNN.C142_sequential"
   ],
   "note": "without padding (policy fixed to 0, or valid on images that the windows tile); nhwc convolutions up to 2^31 elements per image"
  },
  {
   "property": "C143",
   "status": "proved",
   "theorems": [
    "StdNN.C143_matmul",
    "StdNN.C143_bias_hw",
    "StdNN.C143_bias_nhwc",
    "StdNN.C143_conv",
    "StdNN.C143_order",
    "StdNN.C143_step_order",
    "StdNN.C143_step_parts"
   ],
   "note": "exact arithmetic (real numbers for training)"
  },
  {
   "property": "C144",
   "status": "proved",
   "theorems": [
    "StdNN.C144_composed",
    "StdNN.C144_sequential",
    "StdNN.C144_certificate",
    "StdNN.C144_dense",
    "StdNN.C144_dense_sharp",
    "StdNN.C144_conv_nhwc",
    "StdNN.C144_conv_nchw",
    "StdNN.C144_max_pool",
    "StdNN.C144_mean_pool",
    "StdNN.C144_activation",
    "StdNN.C144_bn_nhwc",
    "StdNN.C144_bn_nchw",
    "StdNN.C144_softmax"
   ],
   "note": "exact arithmetic (real numbers); nhwc convolutions up to 2^31 elements per image; mean pooling where every window sees a pixel"
  },
  {
   "property": "C145",
   "status": "proved",
   "theorems": [
    "StdNN.C145_order",
    "StdNN.C145_parameters",
    "StdNN.C145_loss",
    "StdNN.C145_descent"
   ],
   "note": "labels as one-hot rows and the same weight for every example, as in the example; no overflow or underflow, as in C93"
  },
  {
   "property": "C146",
   "status": "proved",
   "theorems": [
    "StdNN.C146_dense",
    "StdNN.C146_conv_nhwc",
    "StdNN.C146_conv_nchw",
    "StdNN.C146_relu",
    "StdNN.C146_dense_reorder",
    "StdNN.C146_dense_prune"
   ],
   "note": "exact arithmetic (semirings); nhwc convolutions up to 2^31 elements per image"
  },
  {
   "property": "C147",
   "status": "proved",
   "theorems": [
    "StdNN.C147_loss",
    "StdNN.C147_learned",
    "StdNN.C147_online"
   ],
   "note": "exact arithmetic; (b) and (c) while no predicted probability is below the clipping bound, as in C129"
  },
  {
   "property": "C148",
   "status": "proved",
   "theorems": [
    "StdNN.C148_dense",
    "StdNN.C148_conv_nhwc",
    "StdNN.C148_conv_nchw",
    "StdNN.C148_bn_conv_nhwc",
    "StdNN.C148_bn_conv_nchw",
    "StdNN.C148_padding"
   ],
   "note": "exact arithmetic (commutative semirings, fields for batch normalisation); nhwc convolutions up to 2^31 elements per image"
  },
  {
   "property": "C149",
   "status": "proved",
   "theorems": [
    "StdNN.C149_composed",
    "StdNN.C149_sequential",
    "StdNN.C149_dense",
    "StdNN.C149_conv_nhwc",
    "StdNN.C149_conv_nchw",
    "StdNN.C149_activation",
    "StdNN.C149_pool",
    "StdNN.C149_max_pool",
    "StdNN.C149_mean_pool",
    "StdNN.C149_hom",
    "StdNN.C149_convert",
    "StdNN.C149_nonneg",
    "StdNN.C149_nonpos",
    "StdNN.C149_max_mono",
    "StdNN.C149_interval",
    "StdNN.C149_interval_act",
    "StdNN.C149_interval_class"
   ],
   "note": "no law of arithmetic assumed for the layers; monotone networks and enclosures in the rounding model without NaN and infinities; nhwc convolutions up to 2^31 elements per image"
  },
  {
   "property": "C150",
   "status": "proved",
   "theorems": [
    "StdNN.C150_composed",
    "StdNN.C150_sequential",
    "StdNN.C150_dense",
    "StdNN.C150_conv_nhwc",
    "StdNN.C150_conv_nchw",
    "StdNN.C150_activation",
    "StdNN.C150_relu",
    "StdNN.C150_smooth",
    "StdNN.C150_pool",
    "StdNN.C150_max_pool",
    "StdNN.C150_mean_pool",
    "StdNN.C150_div",
    "StdNN.C150_directional"
   ],
   "note": "real numbers and dual numbers over them; nhwc convolutions up to 2^31 elements per image"
  },
  {
   "property": "C151",
   "status": "proved",
   "theorems": [
    "StdNN.C151_unary",
    "StdNN.C151_binary",
    "StdNN.C151_tensor",
    "StdNN.C151_matmul",
    "StdNN.C151_add",
    "StdNN.C151_mul",
    "StdNN.C151_bias_hw",
    "StdNN.C151_bias_nhwc",
    "StdNN.C151_conv"
   ],
   "note": "real numbers; nchw convolutions have no gradient operators in the library; nhwc convolutions up to 2^31 elements per image"
  },
  {
   "property": "C152",
   "status": "proved",
   "theorems": [
    "StdNN.C152_composed",
    "StdNN.C152_sequential",
    "StdNN.C152_reshape",
    "StdNN.C152_one_layer",
    "StdNN.C152_layers",
    "StdNN.C152_dense",
    "StdNN.C152_conv_nhwc",
    "StdNN.C152_conv_nchw",
    "StdNN.C152_conv_dense",
    "StdNN.C152_shared",
    "StdNN.C152_activation",
    "StdNN.C152_max_pool",
    "StdNN.C152_mean_pool",
    "StdNN.C152_bn_nhwc",
    "StdNN.C152_bn_nchw",
    "StdNN.C152_xor",
    "StdNN.C152_xor_relu",
    "StdNN.C152_relu_lines",
    "StdNN.C152_square"
   ],
   "note": "Exact arithmetic. C152_shared fixes the weights of the dense layer that C152_conv_dense compares with. C152_xor_relu and C152_relu_lines show that the number of pieces matters."
  },
  {
   "property": "C153",
   "status": "proved",
   "theorems": [
    "StdNN.C153_mixture",
    "StdNN.C153_minimum",
    "StdNN.C153_composed",
    "StdNN.C153_composed_rising",
    "StdNN.C153_sequential",
    "StdNN.C153_dense",
    "StdNN.C153_dense_rising",
    "StdNN.C153_conv_nhwc",
    "StdNN.C153_conv_nhwc_rising",
    "StdNN.C153_conv_nchw",
    "StdNN.C153_conv_nchw_rising",
    "StdNN.C153_activation",
    "StdNN.C153_max_pool",
    "StdNN.C153_mean_pool",
    "StdNN.C153_bn_nhwc",
    "StdNN.C153_bn_nchw",
    "StdNN.C153_negative"
   ],
   "note": "Exact arithmetic in ordered fields. C153_negative shows that the sign of the weights matters."
  },
  {
   "property": "C154",
   "status": "proved",
   "theorems": [
    "StdNN.C154_free",
    "StdNN.C154_nearest",
    "StdNN.C154_sees",
    "StdNN.C154_scaled",
    "StdNN.C154_id",
    "StdNN.C154_relu",
    "StdNN.C154_composed",
    "StdNN.C154_sequential",
    "StdNN.C154_dense",
    "StdNN.C154_conv_nhwc",
    "StdNN.C154_conv_nchw",
    "StdNN.C154_activation",
    "StdNN.C154_max_pool",
    "StdNN.C154_mean_pool",
    "StdNN.C154_exact",
    "StdNN.C154_class",
    "StdNN.C154_underflow"
   ],
   "note": "IEEE 754 binary formats; the sign of zero is not modelled. The layers g, g' of Scales are the modelled layers on the numbers of the format; the watched layers only state the condition."
  },
  {
   "property": "C155",
   "status": "proved",
   "theorems": [
    "StdNN.C155_next",
    "StdNN.C155_permutations",
    "StdNN.C155_factorial",
    "StdNN.C155_generate",
    "StdNN.C155_digits",
    "StdNN.C155_is_permutation",
    "StdNN.C155_wraps"
   ],
   "note": "The counter of test_all_permutations is not bounded. std::sort and std::next_permutation are modelled from their specification."
  },
  {
   "property": "C156",
   "status": "proved",
   "theorems": [
    "StdNN.C156_transposed",
    "StdNN.C156_composed",
    "StdNN.C156_sequential",
    "StdNN.C156_classifier",
    "StdNN.C156_head",
    "StdNN.C156_conv",
    "StdNN.C156_conv_bits",
    "StdNN.C156_mul_comm",
    "StdNN.C156_pool",
    "StdNN.C156_bn",
    "StdNN.C156_activation",
    "StdNN.C156_dense",
    "StdNN.C156_rounding"
   ],
   "note": "C156_conv and C156_dense need exact arithmetic; C156_rounding shows that this is necessary for convolutions."
  },
  {
   "property": "C157",
   "status": "proved",
   "theorems": [
    "StdNN.C157_composed",
    "StdNN.C157_sequential",
    "StdNN.C157_dense",
    "StdNN.C157_conv",
    "StdNN.C157_activation",
    "StdNN.C157_curve",
    "StdNN.C157_agree",
    "StdNN.C157_weights",
    "StdNN.C157_gradient",
    "StdNN.C157_kink"
   ],
   "note": "real numbers; nhwc convolutions up to 2^31 elements per image (nchw convolutions have no gradient operators); activations: none or relu"
  },
  {
   "property": "C158",
   "status": "proved",
   "theorems": [
    "StdNN.C158_stored",
    "StdNN.C158_made",
    "StdNN.C158_shape",
    "StdNN.C158_shape_line",
    "StdNN.C158_line",
    "StdNN.C158_right_im2col",
    "StdNN.C158_right_conv",
    "StdNN.C158_right_pool",
    "StdNN.C158_left_im2col",
    "StdNN.C158_left_conv",
    "StdNN.C158_left_pool",
    "StdNN.C158_left_mean_int",
    "StdNN.C158_no_crop"
   ],
   "note": "paddings built from numbers of either sign; the four-dimensional pooling operators drop the padding of their trait anyway (C39); gradients in C164"
  },
  {
   "property": "C159",
   "status": "proved",
   "theorems": [
    "StdNN.C159_cast",
    "StdNN.C159_cast_undefined",
    "StdNN.C159_int_int",
    "StdNN.C159_float_int",
    "StdNN.C159_float_int_nan",
    "StdNN.C159_int_float",
    "StdNN.C159_round_trip",
    "StdNN.C159_round_trip_wide",
    "StdNN.C159_widen",
    "StdNN.C159_narrow",
    "StdNN.C159_argmax",
    "StdNN.C159_relu_scalar_float",
    "StdNN.C159_relu_scalar_int",
    "StdNN.C159_relu_scalar_wide",
    "StdNN.C159_relu_scalar_changes"
   ],
   "note": "signs of zeros are not modelled; double is binary64"
  },
  {
   "property": "C160",
   "status": "proved",
   "theorems": [
    "StdNN.C160_dense",
    "StdNN.C160_conv_nhwc",
    "StdNN.C160_conv_nchw",
    "StdNN.C160_relu",
    "StdNN.C160_rescale",
    "StdNN.C160_max_pool",
    "StdNN.C160_mean_pool",
    "StdNN.C160_network",
    "StdNN.C160_class_exact",
    "StdNN.C160_class"
   ],
   "note": "int32_t and int64_t; mean pooling for int64_t only, as the code divides int32_t sums by an unsigned number (C134); the real network is in exact arithmetic"
  },
  {
   "property": "C161",
   "status": "proved",
   "theorems": [
    "StdNN.C161_float",
    "StdNN.C161_float_near",
    "StdNN.C161_float_accepts",
    "StdNN.C161_float_self",
    "StdNN.C161_float_comm",
    "StdNN.C161_float_odd",
    "StdNN.C161_double",
    "StdNN.C161_double_same",
    "StdNN.C161_double_huge",
    "StdNN.C161_double_blind",
    "StdNN.C161_tensor",
    "StdNN.C161_tensor_pass",
    "StdNN.C161_tensor_exact",
    "StdNN.C161_bytes",
    "StdNN.C161_bytes_equal",
    "StdNN.C161_bytes_wrap",
    "StdNN.C161_bytes_floats"
   ],
   "note": "ASSERT_FLOAT_EQ is Google Test's and is modelled after its documentation; dimensions of stdtensor have 32 bits"
  },
  {
   "property": "C162",
   "status": "proved",
   "theorems": [
    "StdNN.C162_decimal",
    "StdNN.C162_show1_text",
    "StdNN.C162_show1",
    "StdNN.C162_show1_silent",
    "StdNN.C162_show2_text",
    "StdNN.C162_show2",
    "StdNN.C162_show2_shape",
    "StdNN.C162_showN",
    "StdNN.C162_show_tensor_text",
    "StdNN.C162_show_tensor_int",
    "StdNN.C162_show_tensor_float",
    "StdNN.C162_show_tensor_undefined",
    "StdNN.C162_type_name",
    "StdNN.C162_data_size",
    "StdNN.C162_printed_size"
   ],
   "note": "the text of shapes is stdtensor's and is a parameter, as is the text of elements in show"
  },
  {
   "property": "C163",
   "status": "proved",
   "theorems": [
    "StdNN.C163_col2im",
    "StdNN.C163_col2im1d",
    "StdNN.C163_image",
    "StdNN.C163_filter",
    "StdNN.C163_taps",
    "StdNN.C163_image_error",
    "StdNN.C163_filter_error",
    "StdNN.C163_image_ieee",
    "StdNN.C163_filter_ieee"
   ],
   "note": ""
  },
  {
   "property": "C164",
   "status": "proved",
   "theorems": [
    "StdNN.C164_shape",
    "StdNN.C164_shape_line",
    "StdNN.C164_line",
    "StdNN.C164_line_adjoint",
    "StdNN.C164_adjoint",
    "StdNN.C164_adjoint_image",
    "StdNN.C164_adjoint_filter",
    "StdNN.C164_right",
    "StdNN.C164_cropped_away",
    "StdNN.C164_left"
   ],
   "note": "paddings built from numbers of either sign, as in C158"
  },
  {
   "property": "C165",
   "status": "proved",
   "theorems": [
    "StdNN.Shared.C165_separate",
    "StdNN.Shared.C165_mmt_left",
    "StdNN.Shared.C165_mmt_right",
    "StdNN.Shared.C165_mtm_right",
    "StdNN.Shared.C165_mtm_left",
    "StdNN.Shared.C165_vector",
    "StdNN.Shared.C165_matmul_left",
    "StdNN.Shared.C165_matmul_right",
    "StdNN.Shared.C165_mmt_when",
    "StdNN.Shared.C165_mtm_when",
    "StdNN.Shared.C165_to_first",
    "StdNN.Shared.C165_to_last",
    "StdNN.Shared.C165_transpose_when"
   ],
   "note": "the built-in engine; BLAS libraries forbid sharing"
  },
  {
   "property": "C166",
   "status": "proved",
   "theorems": [
    "StdNN.Shared.C166_mul_grad",
    "StdNN.Shared.C166_copy",
    "StdNN.Shared.C166_xentropy",
    "StdNN.Shared.C166_sum_rows",
    "StdNN.Shared.C166_bias",
    "StdNN.Shared.C166_softmax_onto_output",
    "StdNN.Shared.C166_softmax_onto_gradient",
    "StdNN.Shared.C166_conv_any",
    "StdNN.Shared.C166_conv",
    "StdNN.Shared.C166_conv_nchw",
    "StdNN.Shared.C166_conv_grad",
    "StdNN.Shared.C166_pool",
    "StdNN.Shared.C166_pool_nchw",
    "StdNN.Shared.C166_pool_hwc",
    "StdNN.Shared.C166_pool_nhwc",
    "StdNN.Shared.C166_pool_between",
    "StdNN.Shared.C166_wrong"
   ],
   "note": ""
  },
  {
   "property": "C167",
   "status": "proved",
   "theorems": [
    "StdNN.C167_xentropy",
    "StdNN.C167_softmax",
    "StdNN.C167_scores",
    "StdNN.C167_bias",
    "StdNN.C167_deep",
    "StdNN.C167_deep_params"
   ],
   "note": "no underflow: as in C93 the error of every operation is relative"
  },
  {
   "property": "C168",
   "status": "proved",
   "theorems": [
    "StdNN.Prog.C168_threads",
    "StdNN.Prog.C168_any_order",
    "StdNN.Prog.C168_deterministic",
    "StdNN.Prog.C168_call",
    "StdNN.Prog.C168_matmul",
    "StdNN.Prog.C168_clash",
    "StdNN.Prog.C168_read_clash"
   ],
   "note": "element accesses are atomic and sequentially consistent, which C++ grants programs without data races; that there is none is proved in that semantics"
  },
  {
   "property": "C169",
   "status": "proved",
   "theorems": [
    "StdNN.Prog.C169_accesses",
    "StdNN.Prog.C169_races",
    "StdNN.Prog.C169_writes",
    "StdNN.Prog.C169_rewrites",
    "StdNN.Prog.C169_counts",
    "StdNN.Prog.C169_matmul"
   ],
   "note": "convolution reads its image patch by patch into a buffer of its own; images of up to 2^31 elements; in C++ a race is undefined behaviour, so the statement on races is about hardware that makes element accesses atomic"
  },
  {
   "property": "C170",
   "status": "proved",
   "theorems": [
    "StdNN.C170_runs",
    "StdNN.C170_descent",
    "StdNN.C170_best",
    "StdNN.C170_exact"
   ],
   "note": "the whole batch in every step; the bound M and the absence of clipping are assumed along the run; no overflow or underflow, as in C93"
  },
  {
   "property": "C171",
   "status": "proved",
   "theorems": [
    "StdNN.Prog.C171_network",
    "StdNN.Prog.C171_turns"
   ],
   "note": "threads as in C168; results, inputs and parameters do not overlap"
  },
  {
   "property": "C172",
   "status": "proved",
   "theorems": [
    "StdNN.Prog.C172_shares",
    "StdNN.Prog.C172_turns",
    "StdNN.Prog.C172_gradient"
   ],
   "note": "threads as in C168; the bias gradient is the library's (outter_contraction), the example has a loop of its own with the same sums"
  },
  {
   "property": "C173",
   "status": "proved",
   "theorems": [
    "StdNN.C173_step",
    "StdNN.C173_steps",
    "StdNN.C173_train",
    "StdNN.C173_descent",
    "StdNN.C173_exact"
   ],
   "note": "no overflow or underflow, as in C93"
  },
  {
   "property": "C174",
   "status": "proved",
   "theorems": [
    "StdNN.Prog.C174_added",
    "StdNN.Prog.C174_weights",
    "StdNN.Prog.C174_bias",
    "StdNN.Prog.C174_divisions"
   ],
   "note": "threads as in C168, rounding as in C93 (no overflow or underflow); that the caller adds the buffers with add is the caller's part, the repository has no such loop"
  },
  {
   "property": "C175",
   "status": "proved",
   "theorems": [
    "StdNN.Prog.C175_subtracted",
    "StdNN.Prog.C175_step",
    "StdNN.Prog.C175_run",
    "StdNN.Prog.C175_train",
    "StdNN.Prog.C175_rounded",
    "StdNN.Prog.C175_deterministic"
   ],
   "note": "threads as in C168; the division and the calls of sub are the caller's part; the run in exact arithmetic, one step also in rounded arithmetic as in C93"
  },
  {
   "property": "C176",
   "status": "proved",
   "theorems": [
    "StdNN.Prog.C176_races",
    "StdNN.Prog.C176_contents",
    "StdNN.Prog.C176_drf",
    "StdNN.Prog.C176_any_order",
    "StdNN.Prog.C176_two",
    "StdNN.Prog.C176_writes",
    "StdNN.Prog.C176_blocks",
    "StdNN.Prog.C176_step"
   ],
   "note": "threads as in C168: sequentially consistent turns of single element accesses; what a racy program does beyond that (C++ calls it undefined) is not modelled"
  }
 ]
}