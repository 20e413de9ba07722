# Axioms of the theorems in MANIFEST.json

Printed by Lean's `collectAxioms` for every theorem of the manifest. No other axiom occurs.

## no axioms (4 theorems)

* `StdNN.C09_defaults`
* `StdNN.NameScope.C75_empty_prefix`
* `StdNN.C122_overwrites`
* `StdNN.C149_hom`

## `propext` (54 theorems)

* `StdNN.C05_not_ceil`
* `StdNN.C06_wraps_padding`
* `StdNN.C06_wraps_patch`
* `StdNN.C07_defaults`
* `StdNN.C08_image_positions`
* `StdNN.C08_filter_positions`
* `StdNN.C08_transpose`
* `StdNN.C08_injective`
* `StdNN.C09_channel_mismatch`
* `StdNN.C10_defaults`
* `StdNN.C11_rejects`
* `StdNN.C12_gradient_throws`
* `StdNN.C12_check_shape`
* `StdNN.C13_unary`
* `StdNN.C13_binary`
* `StdNN.C13_binary_reduce`
* `StdNN.C15_flatten_shape`
* `StdNN.C15_flatten_index`
* `StdNN.C15_as_matrix`
* `StdNN.C26_channel_mismatch`
* `StdNN.C36_channel_mismatch`
* `StdNN.C38_negative_mean`
* `StdNN.C38_empty_window`
* `StdNN.C39_padding_dropped`
* `StdNN.C59_shape`
* `StdNN.C60_empty`
* `StdNN.C62_seed`
* `StdNN.C65_polynomials`
* `StdNN.C77_narrowed`
* `StdNN.C78_defaults`
* `StdNN.C80_int_mean_pool_undefined`
* `StdNN.C82_int_negative`
* `StdNN.C84_dense_owned_partial`
* `StdNN.C84_conv_owned_partial`
* `StdNN.C84_conv_no_bias_owned_partial`
* `StdNN.C84_pool_owned_partial`
* `StdNN.C84_identity_owned_partial`
* `StdNN.C84_activation_owned_partial`
* `StdNN.C84_concat_owned_partial`
* `StdNN.C84_bn_owned_partial`
* `StdNN.C84_composed_leaks`
* `StdNN.C84_bn_init_leaks`
* `StdNN.C84_weight_init_leaks`
* `StdNN.C84_filter_init_leaks`
* `StdNN.C84_refused_image_leaks`
* `StdNN.Vgg16.C102_lines`
* `StdNN.C105_runs`
* `StdNN.C110_rejects`
* `StdNN.C134_narrow_wrong`
* `StdNN.C137_shapes`
* `StdNN.C149_max_mono`
* `StdNN.Shared.C166_pool_between`
* `StdNN.Shared.C166_wrong`
* `StdNN.Prog.C168_read_clash`

## `Quot.sound`, `propext` (53 theorems)

* `StdNN.C07_ksize`
* `StdNN.C12_gradient_shape`
* `StdNN.C13_axpy`
* `StdNN.C39_accumulators`
* `StdNN.C58_shape`
* `StdNN.C60_min`
* `StdNN.C60_max`
* `StdNN.C60_sum`
* `StdNN.C61_fill`
* `StdNN.C64_incremental`
* `StdNN.C65_needs_top_bit`
* `StdNN.C69_missing`
* `StdNN.C70_header_partial`
* `StdNN.C71_refused`
* `StdNN.C71_protected`
* `StdNN.C74_odd_size`
* `StdNN.NameScope.C75_with`
* `StdNN.C75_fresh`
* `StdNN.NameScope.C75_restores`
* `StdNN.NameScope.C75_join`
* `StdNN.C84_composed_owned_partial`
* `StdNN.C84_sequential_owned_partial`
* `StdNN.C97_shape`
* `StdNN.C100_name`
* `StdNN.Vgg16.C102_every`
* `StdNN.C111_composed`
* `StdNN.C111_one_by_one`
* `StdNN.C118_no_file`
* `StdNN.C121_odd_missed`
* `StdNN.C121_residues`
* `StdNN.C138_increasing`
* `StdNN.C140_unique`
* `StdNN.C142_composed`
* `StdNN.C149_composed`
* `StdNN.C149_convert`
* `StdNN.C153_composed`
* `StdNN.C153_composed_rising`
* `StdNN.C156_composed`
* `StdNN.C156_classifier`
* `StdNN.C156_head`
* `StdNN.C161_tensor`
* `StdNN.C161_bytes`
* `StdNN.C161_bytes_equal`
* `StdNN.C161_bytes_wrap`
* `StdNN.C162_show1_text`
* `StdNN.C162_show1_silent`
* `StdNN.C162_show2_text`
* `StdNN.C162_show2_shape`
* `StdNN.C162_showN`
* `StdNN.C162_data_size`
* `StdNN.C162_printed_size`
* `StdNN.Prog.C169_writes`
* `StdNN.Prog.C169_rewrites`

## `Classical.choice`, `Quot.sound`, `propext` (858 theorems)

* `StdNN.C01_output_length`
* `StdNN.C01_total`
* `StdNN.C02_taps`
* `StdNN.C02_sample`
* `StdNN.C02_extremes`
* `StdNN.C03_constructor`
* `StdNN.C04_valid_padding_least`
* `StdNN.C04_valid_padding_length`
* `StdNN.C05_same_padding_throws`
* `StdNN.C05_same_padding_length`
* `StdNN.C05_same_padding_stride_one`
* `StdNN.C06_no_silent_wrap_partial`
* `StdNN.C06_effect`
* `StdNN.C07_per_axis`
* `StdNN.C07_constructor_throws`
* `StdNN.C09_conv_shape`
* `StdNN.C09_not_sampled`
* `StdNN.C09_zero_rejected`
* `StdNN.C09_zero_rejected_width`
* `StdNN.C10_pool_shape`
* `StdNN.C10_rejects`
* `StdNN.C10_zero_rejected`
* `StdNN.C11_col2im_inverts`
* `StdNN.C11_col2im1d_inverts`
* `StdNN.C11_rejects1d`
* `StdNN.C14_concat`
* `StdNN.C14_wraps`
* `StdNN.C14_rejects`
* `StdNN.C14_channel`
* `StdNN.C15_copy_flatten`
* `StdNN.C16_mm`
* `StdNN.C16_mmt`
* `StdNN.C16_mtm`
* `StdNN.C16_mv`
* `StdNN.C16_vm`
* `StdNN.C17_mm`
* `StdNN.C17_mmt`
* `StdNN.C17_mtm`
* `StdNN.C17_mv`
* `StdNN.C17_vm`
* `StdNN.C18_mmt`
* `StdNN.C18_mtm`
* `StdNN.C18_mv`
* `StdNN.C18_vm`
* `StdNN.C19_mm`
* `StdNN.C19_mmt`
* `StdNN.C19_mtm`
* `StdNN.C19_mv`
* `StdNN.C19_vm`
* `StdNN.C20_assoc`
* `StdNN.C20_distrib`
* `StdNN.C21_pointwise`
* `StdNN.C21_relu`
* `StdNN.C21_add`
* `StdNN.C21_sub`
* `StdNN.C21_mul`
* `StdNN.C21_axpy`
* `StdNN.C21_identity`
* `StdNN.C21_store_cells`
* `StdNN.C22_bias_hw`
* `StdNN.C22_bias_nhwc`
* `StdNN.C22_bias_nchw`
* `StdNN.C22_shape`
* `StdNN.C23_bias_layout`
* `StdNN.C24_to_channels_first`
* `StdNN.C24_to_channels_last`
* `StdNN.C24_inverse`
* `StdNN.C25_concat_nchw`
* `StdNN.C25_concat_nhwc`
* `StdNN.C26_im2col_hwrs`
* `StdNN.C26_im2col_rshw`
* `StdNN.C26_im2col_hwrsc`
* `StdNN.C26_im2col1d`
* `StdNN.C27_idx_map`
* `StdNN.C27_limit`
* `StdNN.C28_col2im`
* `StdNN.C28_col2im1d`
* `StdNN.C29_adjoint`
* `StdNN.C29_adjoint1d`
* `StdNN.C30_multiplicity`
* `StdNN.C30_tiling`
* `StdNN.C31_conv_nhwc`
* `StdNN.C32_conv_nchw`
* `StdNN.C33_layouts_agree`
* `StdNN.C34_linear_image`
* `StdNN.C34_linear_filter`
* `StdNN.C34_linear_nchw`
* `StdNN.C34_batch`
* `StdNN.C35_conv1d`
* `StdNN.C35_order`
* `StdNN.C35_conv1d_im2col`
* `StdNN.C35_shape`
* `StdNN.C36_max_pool`
* `StdNN.C36_max_pool_hwc`
* `StdNN.C36_lowest`
* `StdNN.C37_mean_pool`
* `StdNN.C37_order`
* `StdNN.C37_order_hwc`
* `StdNN.C38_int_mean_partial`
* `StdNN.C38_effect`
* `StdNN.C39_per_image_partial`
* `StdNN.C39_per_channel_partial`
* `StdNN.C39_effect`
* `StdNN.C40_layouts_agree`
* `StdNN.C41_monotone`
* `StdNN.C41_layer`
* `StdNN.C41_layer_nonempty`
* `StdNN.C42_left`
* `StdNN.C42_right`
* `StdNN.C43_add`
* `StdNN.C43_mul`
* `StdNN.C44_hw`
* `StdNN.C44_nhwc`
* `StdNN.C44_nchw_input`
* `StdNN.C45_conv_grad_image`
* `StdNN.C46_conv_grad_filter`
* `StdNN.C47_relu_grad`
* `StdNN.C47_relu_derivative`
* `StdNN.C48_formula`
* `StdNN.C48_formula_vector`
* `StdNN.C48_gradient`
* `StdNN.C49_formula`
* `StdNN.C49_gradient`
* `StdNN.C50_chain`
* `StdNN.C51_order`
* `StdNN.C51_value`
* `StdNN.C51_probability`
* `StdNN.C52_shift`
* `StdNN.C52_order`
* `StdNN.C52_permutation`
* `StdNN.C52_rows`
* `StdNN.C53_relu_laws`
* `StdNN.C54_order`
* `StdNN.C54_value`
* `StdNN.C54_gibbs`
* `StdNN.C55_nhwc`
* `StdNN.C55_nchw`
* `StdNN.C55_bias_nhwc`
* `StdNN.C55_bias_nchw`
* `StdNN.C55_layouts_agree`
* `StdNN.C55_shape`
* `StdNN.C55_standardises`
* `StdNN.C56_effect`
* `StdNN.C56_onehot`
* `StdNN.C56_narrowing`
* `StdNN.C57_argmax`
* `StdNN.C57_inverse`
* `StdNN.C58_top`
* `StdNN.C58_deterministic`
* `StdNN.C58_wrapped`
* `StdNN.isSort_mergeSort`
* `StdNN.C59_similarity`
* `StdNN.C60_span`
* `StdNN.C60_mean`
* `StdNN.C60_variance`
* `StdNN.C60_adj_diff_sum`
* `StdNN.C60_std`
* `StdNN.C60_scalar_summaries`
* `StdNN.C61_uniform`
* `StdNN.C62_output`
* `StdNN.C62_terminates`
* `StdNN.C62_seeded`
* `StdNN.C62_bound`
* `StdNN.C63_bitwise`
* `StdNN.C64_resume`
* `StdNN.C64_affine`
* `StdNN.C65_burst`
* `StdNN.C65_byte`
* `StdNN.C66_remainder`
* `StdNN.C66_regPoly_injective`
* `StdNN.C66_generators`
* `StdNN.C67_format`
* `StdNN.C67_involution`
* `StdNN.C67_big_endian_host`
* `StdNN.C68_round_trip`
* `StdNN.C68_typed`
* `StdNN.C69_magic`
* `StdNN.C69_mismatch`
* `StdNN.C69_accepts`
* `StdNN.C70_effect`
* `StdNN.C70_mixed`
* `StdNN.C71_files`
* `StdNN.C71_read`
* `StdNN.C72_index`
* `StdNN.C72_read`
* `StdNN.C72_missing`
* `StdNN.C73_blocks_partial`
* `StdNN.C73_terminates`
* `StdNN.C73_diverges`
* `StdNN.C73_diverges_witness`
* `StdNN.C73_seek_fails`
* `StdNN.C73_overflow`
* `StdNN.C73_overflow_witness`
* `StdNN.C73_undefined`
* `StdNN.C73_throws`
* `StdNN.C73_hangs`
* `StdNN.C73_blocks_or_hangs`
* `StdNN.Models.C76_sequential`
* `StdNN.Models.C76_stops`
* `StdNN.C76_with_init`
* `StdNN.C76_omitted_init`
* `StdNN.C77_dense`
* `StdNN.C78_conv_nhwc`
* `StdNN.C78_conv_nchw`
* `StdNN.C78_conv_no_bias`
* `StdNN.C78_same_padding`
* `StdNN.C78_valid_padding`
* `StdNN.C78_fixed_padding`
* `StdNN.C79_rejects`
* `StdNN.C79_max_partial`
* `StdNN.C79_mean_partial`
* `StdNN.C79_default`
* `StdNN.C80_matmul`
* `StdNN.C80_unary`
* `StdNN.C80_binary`
* `StdNN.C80_softmax`
* `StdNN.C80_xentropy`
* `StdNN.C80_bias`
* `StdNN.C80_batch_norm`
* `StdNN.C80_batch_norm_with_bias`
* `StdNN.C80_transpose`
* `StdNN.C80_copy_flatten`
* `StdNN.C80_concat`
* `StdNN.C80_mean`
* `StdNN.C80_argmax`
* `StdNN.C80_onehot`
* `StdNN.C80_similarity`
* `StdNN.C80_conv_nhwc`
* `StdNN.C80_conv_nchw`
* `StdNN.C80_pool_hw`
* `StdNN.C80_pool`
* `StdNN.C80_im2col`
* `StdNN.C80_im2col_hwrsc`
* `StdNN.C80_im2col_nhwrsc`
* `StdNN.C80_col2im`
* `StdNN.C80_im2col1d`
* `StdNN.C80_conv1d`
* `StdNN.C80_grad_matmul`
* `StdNN.C80_grad_binary`
* `StdNN.C80_grad_relu`
* `StdNN.C80_grad_softmax`
* `StdNN.C80_grad_xentropy`
* `StdNN.C80_grad_bias`
* `StdNN.C80_grad_conv`
* `StdNN.C80_cast`
* `StdNN.C80_top`
* `StdNN.C80_crc`
* `StdNN.C80_col2im1d`
* `StdNN.C80_grad_copy_flatten`
* `StdNN.C81_not_in_place`
* `StdNN.C81_effect`
* `StdNN.C81_when_right`
* `StdNN.C82_mean`
* `StdNN.C83_effect`
* `StdNN.C83_fits_partial`
* `StdNN.C84_dense_leaks`
* `StdNN.C84_bias_init_leaks`
* `StdNN.C84_conv_leaks`
* `StdNN.C85_dense_partial`
* `StdNN.C85_conv_nhwc_partial`
* `StdNN.C85_conv_nchw_partial`
* `StdNN.C85_relu_dense_partial`
* `StdNN.C85_relu_conv_nhwc_partial`
* `StdNN.C85_relu_conv_nchw_partial`
* `StdNN.C85_softmax`
* `StdNN.Layers.C85_softmax_effect`
* `StdNN.C86_bn_nhwc`
* `StdNN.C86_bn_nchw`
* `StdNN.C87_padding_nhwc`
* `StdNN.C87_padding_nchw`
* `StdNN.C87_padding_1d`
* `StdNN.C88_dilation_nhwc`
* `StdNN.C88_dilation_nchw`
* `StdNN.C88_dilation_1d`
* `StdNN.C89_stride_nhwc`
* `StdNN.C89_stride_nchw`
* `StdNN.C89_stride_1d`
* `StdNN.C90_crop_nhwc`
* `StdNN.C90_crop_nchw`
* `StdNN.C91_conv_order`
* `StdNN.C91_conv_order_nchw`
* `StdNN.C92_one_by_one`
* `StdNN.C92_full_kernel`
* `StdNN.C93_matmul`
* `StdNN.C93_mmt`
* `StdNN.C93_mtm`
* `StdNN.C93_conv`
* `StdNN.C94_softmax_range`
* `StdNN.C94_softmax_masks`
* `StdNN.C95_loss_finite`
* `StdNN.C96_relu`
* `StdNN.C96_max_pool`
* `StdNN.C96_max_pool_hw`
* `StdNN.C96_max_pool_layer`
* `StdNN.C96_argmax`
* `StdNN.C97_loss`
* `StdNN.C97_step`
* `StdNN.C97_gradient`
* `StdNN.C98_accuracy`
* `StdNN.C98_test`
* `StdNN.C99_load`
* `StdNN.C99_run`
* `StdNN.C99_zero`
* `StdNN.C100_load`
* `StdNN.C100_refused`
* `StdNN.C100_truncated`
* `StdNN.Vgg16.C101_run`
* `StdNN.Vgg16.C101_rejects`
* `StdNN.Vgg16.C101_ranking`
* `StdNN.Vgg16.C102_image`
* `StdNN.Vgg16.C103_same`
* `StdNN.C104_nchw`
* `StdNN.C104_nhwc`
* `StdNN.C104_rejects`
* `StdNN.C105_owned`
* `StdNN.C105_add`
* `StdNN.C106_nchw`
* `StdNN.C106_hw`
* `StdNN.C106_twice`
* `StdNN.C107_nhwc`
* `StdNN.C107_nchw`
* `StdNN.C108_dense`
* `StdNN.C109_lookup`
* `StdNN.C110_max_partial`
* `StdNN.C110_mean_partial`
* `StdNN.C110_valid`
* `StdNN.C110_padding_misplaced`
* `StdNN.C110_max_effect`
* `StdNN.C110_mean_effect`
* `StdNN.C111_sequential`
* `StdNN.C111_dense`
* `StdNN.C111_conv_nhwc`
* `StdNN.C111_conv_nchw`
* `StdNN.C111_pool`
* `StdNN.C111_max_pool`
* `StdNN.C111_mean_pool`
* `StdNN.C111_bn_nhwc`
* `StdNN.C111_bn_nchw`
* `StdNN.C111_activation`
* `StdNN.C111_softmax`
* `StdNN.Vgg16.C111_vgg16_features`
* `StdNN.Vgg16.C111_vgg16_classifier`
* `StdNN.Vgg16.C111_vgg16`
* `StdNN.C112_cast`
* `StdNN.C112_any_rank`
* `StdNN.C112_round_trip`
* `StdNN.C112_twice`
* `StdNN.C113_contractions`
* `StdNN.C113_ones`
* `StdNN.C113_total`
* `StdNN.C114_max`
* `StdNN.C114_mean`
* `StdNN.C115_monotone`
* `StdNN.C115_relu`
* `StdNN.C116_channels_nhwc`
* `StdNN.C116_channels_nchw`
* `StdNN.C116_filters_nhwc`
* `StdNN.C116_filters_nchw`
* `StdNN.C117_merge_nhwc`
* `StdNN.C117_merge_nchw`
* `StdNN.C117_merge_1d`
* `StdNN.C117_layers_nhwc`
* `StdNN.C117_layers_nchw`
* `StdNN.C118_parameter`
* `StdNN.C118_file`
* `StdNN.C118_file_refused`
* `StdNN.C118_absent`
* `StdNN.C118_saved`
* `StdNN.Vgg16.C118_image`
* `StdNN.Vgg16.C118_run`
* `StdNN.Vgg16.C118_incomplete`
* `StdNN.C119_sums`
* `StdNN.C119_means`
* `StdNN.C119_pool`
* `StdNN.C120_compose`
* `StdNN.C120_dense`
* `StdNN.C120_conv_nhwc`
* `StdNN.C120_conv_nchw`
* `StdNN.C120_max_pool_nhwc`
* `StdNN.C120_max_pool_nchw`
* `StdNN.C120_argmax`
* `StdNN.C121_undetected`
* `StdNN.C121_two_bits`
* `StdNN.C121_two_bits_usb`
* `StdNN.C121_two_bits_ieee`
* `StdNN.C121_two_bits_ecma`
* `StdNN.C121_odd`
* `StdNN.C121_odd_standard`
* `StdNN.C121_residue`
* `StdNN.C122_top`
* `StdNN.C122_top_keeps`
* `StdNN.C123_reflect_nhwc`
* `StdNN.C123_reflect_nchw`
* `StdNN.C123_reflect_1d`
* `StdNN.C123_transpose_nhwc`
* `StdNN.C123_transpose_nchw`
* `StdNN.C123_max`
* `StdNN.C123_mean`
* `StdNN.C123_max_layer`
* `StdNN.C123_mean_layer`
* `StdNN.C124_backprop`
* `StdNN.C124_loss`
* `StdNN.C124_matmul_left`
* `StdNN.C124_matmul_right`
* `StdNN.C124_bias_hw`
* `StdNN.C124_bias_nhwc`
* `StdNN.C124_bias_nchw`
* `StdNN.C124_bias_hw_param`
* `StdNN.C124_bias_nhwc_param`
* `StdNN.C124_conv_image`
* `StdNN.C124_conv_filter`
* `StdNN.C124_add`
* `StdNN.C124_mul`
* `StdNN.C124_flatten`
* `StdNN.C124_relu`
* `StdNN.C124_softmax`
* `StdNN.C124_xentropy`
* `StdNN.C124_classifier`
* `StdNN.Examples.C125_mlp`
* `StdNN.Examples.C125_mlp_rejects`
* `StdNN.Examples.C125_convs`
* `StdNN.Examples.C125_layers`
* `StdNN.Examples.C125_layers_rejects`
* `StdNN.Examples.C125_any_memory`
* `StdNN.C126_config`
* `StdNN.C126_conv1d`
* `StdNN.C126_im2col`
* `StdNN.C127_softmax`
* `StdNN.C127_softmax_layer`
* `StdNN.C127_class`
* `StdNN.C127_xentropy`
* `StdNN.C127_bn_nhwc`
* `StdNN.C127_bn_nchw`
* `StdNN.C128_images_nhwc`
* `StdNN.C128_images_nchw`
* `StdNN.C128_filters_nhwc`
* `StdNN.C128_filters_nchw`
* `StdNN.C128_pool_nhwc`
* `StdNN.C128_pool_nchw`
* `StdNN.C129_repeat`
* `StdNN.C129_descent`
* `StdNN.C129_minimum`
* `StdNN.C129_converges`
* `StdNN.C129_regret`
* `StdNN.C130_sums`
* `StdNN.C130_mm`
* `StdNN.C130_mmt`
* `StdNN.C130_mtm`
* `StdNN.C130_conv_nhwc`
* `StdNN.C130_conv_nchw`
* `StdNN.C130_compose`
* `StdNN.C130_dense`
* `StdNN.C130_conv_layer_nhwc`
* `StdNN.C130_conv_layer_nchw`
* `StdNN.C130_max_pool_nhwc`
* `StdNN.C130_max_pool_nchw`
* `StdNN.chop24_ints`
* `StdNN.C131_mm`
* `StdNN.C131_mmt`
* `StdNN.C131_mtm`
* `StdNN.C131_conv_nhwc`
* `StdNN.C131_conv_nchw`
* `StdNN.C131_dense`
* `StdNN.C131_sums`
* `StdNN.C132_linear_sample`
* `StdNN.C132_constant_products`
* `StdNN.C132_col2im_counts`
* `StdNN.C132_concat_nhwc_perm`
* `StdNN.C132_concat_nchw_perm`
* `StdNN.C132_affine_grad`
* `StdNN.C132_pool_increasing`
* `StdNN.C132_softmax_constant`
* `StdNN.C132_softmax_pair`
* `StdNN.C132_xentropy_ones`
* `StdNN.C133_mm`
* `StdNN.C133_mmt`
* `StdNN.C133_mtm`
* `StdNN.C133_sums`
* `StdNN.C133_conv_nhwc`
* `StdNN.C133_conv_nchw`
* `StdNN.C133_dense`
* `StdNN.C133_conv_enough`
* `StdNN.C133_enough`
* `StdNN.C133_order`
* `StdNN.C134_unsigned`
* `StdNN.C134_unsigned_right`
* `StdNN.C134_signed`
* `StdNN.C134_narrow`
* `StdNN.C134_narrow_right`
* `StdNN.C134_narrow_pow2`
* `StdNN.C134_i32`
* `StdNN.C134_rows_unsigned`
* `StdNN.C134_rows_signed`
* `StdNN.C135_rounding`
* `StdNN.C135_mm`
* `StdNN.C135_mmt`
* `StdNN.C135_mtm`
* `StdNN.C135_sums`
* `StdNN.C135_conv_nhwc`
* `StdNN.C135_conv_nchw`
* `StdNN.C135_dense`
* `StdNN.C135_float`
* `StdNN.C135_overflow`
* `StdNN.C135_underflow`
* `StdNN.C136_compose`
* `StdNN.C136_dense`
* `StdNN.C136_conv_nhwc`
* `StdNN.C136_conv_nchw`
* `StdNN.C136_max_pool_nhwc`
* `StdNN.C136_max_pool_nchw`
* `StdNN.C136_mean_pool_nhwc`
* `StdNN.C136_mean_pool_nchw`
* `StdNN.C136_reshape`
* `StdNN.C136_argmax`
* `StdNN.C137_argmax`
* `StdNN.C137_onehot`
* `StdNN.C137_inverse`
* `StdNN.C137_mean`
* `StdNN.C137_mean_exact`
* `StdNN.C137_similarity`
* `StdNN.C138_exact_mm`
* `StdNN.C138_exact_mmt`
* `StdNN.C138_exact_mtm`
* `StdNN.C138_exact_mv`
* `StdNN.C138_exact_vm`
* `StdNN.C138_mm`
* `StdNN.C138_mmt`
* `StdNN.C138_mtm`
* `StdNN.C138_mv`
* `StdNN.C138_vm`
* `StdNN.C138_engines`
* `StdNN.C138_integers`
* `StdNN.C138_differ`
* `StdNN.C139_filter`
* `StdNN.C139_image`
* `StdNN.C139_image_stride_one`
* `StdNN.C140_usual`
* `StdNN.C140_no_number`
* `StdNN.C141_window_nhwc`
* `StdNN.C141_window_nchw`
* `StdNN.C141_crop_nhwc`
* `StdNN.C141_crop_nchw`
* `StdNN.C141_shift_nhwc`
* `StdNN.C141_shift_nchw`
* `StdNN.C141_pool_nhwc`
* `StdNN.C141_pool_nchw`
* `StdNN.C142_conv_nhwc`
* `StdNN.C142_conv_nchw`
* `StdNN.C142_pool`
* `StdNN.C142_batch_norm`
* `StdNN.C142_activation`
* `StdNN.C142_sequential`
* `StdNN.C143_matmul`
* `StdNN.C143_bias_hw`
* `StdNN.C143_bias_nhwc`
* `StdNN.C143_conv`
* `StdNN.C143_order`
* `StdNN.C143_step_order`
* `StdNN.C143_step_parts`
* `StdNN.C144_composed`
* `StdNN.C144_sequential`
* `StdNN.C144_certificate`
* `StdNN.C144_dense`
* `StdNN.C144_dense_sharp`
* `StdNN.C144_conv_nhwc`
* `StdNN.C144_conv_nchw`
* `StdNN.C144_max_pool`
* `StdNN.C144_mean_pool`
* `StdNN.C144_activation`
* `StdNN.C144_bn_nhwc`
* `StdNN.C144_bn_nchw`
* `StdNN.C144_softmax`
* `StdNN.C145_order`
* `StdNN.C145_parameters`
* `StdNN.C145_loss`
* `StdNN.C145_descent`
* `StdNN.C146_dense`
* `StdNN.C146_conv_nhwc`
* `StdNN.C146_conv_nchw`
* `StdNN.C146_relu`
* `StdNN.C146_dense_reorder`
* `StdNN.C146_dense_prune`
* `StdNN.C147_loss`
* `StdNN.C147_learned`
* `StdNN.C147_online`
* `StdNN.C148_dense`
* `StdNN.C148_conv_nhwc`
* `StdNN.C148_conv_nchw`
* `StdNN.C148_bn_conv_nhwc`
* `StdNN.C148_bn_conv_nchw`
* `StdNN.C148_padding`
* `StdNN.C149_sequential`
* `StdNN.C149_dense`
* `StdNN.C149_conv_nhwc`
* `StdNN.C149_conv_nchw`
* `StdNN.C149_activation`
* `StdNN.C149_pool`
* `StdNN.C149_max_pool`
* `StdNN.C149_mean_pool`
* `StdNN.C149_nonneg`
* `StdNN.C149_nonpos`
* `StdNN.C149_interval`
* `StdNN.C149_interval_act`
* `StdNN.C149_interval_class`
* `StdNN.C150_composed`
* `StdNN.C150_sequential`
* `StdNN.C150_dense`
* `StdNN.C150_conv_nhwc`
* `StdNN.C150_conv_nchw`
* `StdNN.C150_activation`
* `StdNN.C150_relu`
* `StdNN.C150_smooth`
* `StdNN.C150_pool`
* `StdNN.C150_max_pool`
* `StdNN.C150_mean_pool`
* `StdNN.C150_div`
* `StdNN.C150_directional`
* `StdNN.C151_unary`
* `StdNN.C151_binary`
* `StdNN.C151_tensor`
* `StdNN.C151_matmul`
* `StdNN.C151_add`
* `StdNN.C151_mul`
* `StdNN.C151_bias_hw`
* `StdNN.C151_bias_nhwc`
* `StdNN.C151_conv`
* `StdNN.C152_composed`
* `StdNN.C152_sequential`
* `StdNN.C152_reshape`
* `StdNN.C152_one_layer`
* `StdNN.C152_layers`
* `StdNN.C152_dense`
* `StdNN.C152_conv_nhwc`
* `StdNN.C152_conv_nchw`
* `StdNN.C152_conv_dense`
* `StdNN.C152_shared`
* `StdNN.C152_activation`
* `StdNN.C152_max_pool`
* `StdNN.C152_mean_pool`
* `StdNN.C152_bn_nhwc`
* `StdNN.C152_bn_nchw`
* `StdNN.C152_xor`
* `StdNN.C152_xor_relu`
* `StdNN.C152_relu_lines`
* `StdNN.C152_square`
* `StdNN.C153_mixture`
* `StdNN.C153_minimum`
* `StdNN.C153_sequential`
* `StdNN.C153_dense`
* `StdNN.C153_dense_rising`
* `StdNN.C153_conv_nhwc`
* `StdNN.C153_conv_nhwc_rising`
* `StdNN.C153_conv_nchw`
* `StdNN.C153_conv_nchw_rising`
* `StdNN.C153_activation`
* `StdNN.C153_max_pool`
* `StdNN.C153_mean_pool`
* `StdNN.C153_bn_nhwc`
* `StdNN.C153_bn_nchw`
* `StdNN.C153_negative`
* `StdNN.C154_free`
* `StdNN.C154_nearest`
* `StdNN.C154_sees`
* `StdNN.C154_scaled`
* `StdNN.C154_id`
* `StdNN.C154_relu`
* `StdNN.C154_composed`
* `StdNN.C154_sequential`
* `StdNN.C154_dense`
* `StdNN.C154_conv_nhwc`
* `StdNN.C154_conv_nchw`
* `StdNN.C154_activation`
* `StdNN.C154_max_pool`
* `StdNN.C154_mean_pool`
* `StdNN.C154_exact`
* `StdNN.C154_class`
* `StdNN.C154_underflow`
* `StdNN.C155_next`
* `StdNN.C155_permutations`
* `StdNN.C155_factorial`
* `StdNN.C155_generate`
* `StdNN.C155_digits`
* `StdNN.C155_is_permutation`
* `StdNN.C155_wraps`
* `StdNN.C156_transposed`
* `StdNN.C156_sequential`
* `StdNN.C156_conv`
* `StdNN.C156_conv_bits`
* `StdNN.C156_mul_comm`
* `StdNN.C156_pool`
* `StdNN.C156_bn`
* `StdNN.C156_activation`
* `StdNN.C156_dense`
* `StdNN.C156_rounding`
* `StdNN.C157_composed`
* `StdNN.C157_sequential`
* `StdNN.C157_dense`
* `StdNN.C157_conv`
* `StdNN.C157_activation`
* `StdNN.C157_curve`
* `StdNN.C157_agree`
* `StdNN.C157_weights`
* `StdNN.C157_gradient`
* `StdNN.C157_kink`
* `StdNN.C158_stored`
* `StdNN.C158_made`
* `StdNN.C158_shape`
* `StdNN.C158_shape_line`
* `StdNN.C158_line`
* `StdNN.C158_right_im2col`
* `StdNN.C158_right_conv`
* `StdNN.C158_right_pool`
* `StdNN.C158_left_im2col`
* `StdNN.C158_left_conv`
* `StdNN.C158_left_pool`
* `StdNN.C158_left_mean_int`
* `StdNN.C158_no_crop`
* `StdNN.C159_cast`
* `StdNN.C159_cast_undefined`
* `StdNN.C159_int_int`
* `StdNN.C159_float_int`
* `StdNN.C159_float_int_nan`
* `StdNN.C159_int_float`
* `StdNN.C159_round_trip`
* `StdNN.C159_round_trip_wide`
* `StdNN.C159_widen`
* `StdNN.C159_narrow`
* `StdNN.C159_argmax`
* `StdNN.C159_relu_scalar_float`
* `StdNN.C159_relu_scalar_int`
* `StdNN.C159_relu_scalar_wide`
* `StdNN.C159_relu_scalar_changes`
* `StdNN.C160_dense`
* `StdNN.C160_conv_nhwc`
* `StdNN.C160_conv_nchw`
* `StdNN.C160_relu`
* `StdNN.C160_rescale`
* `StdNN.C160_max_pool`
* `StdNN.C160_mean_pool`
* `StdNN.C160_network`
* `StdNN.C160_class_exact`
* `StdNN.C160_class`
* `StdNN.C161_float`
* `StdNN.C161_float_near`
* `StdNN.C161_float_accepts`
* `StdNN.C161_float_self`
* `StdNN.C161_float_comm`
* `StdNN.C161_float_odd`
* `StdNN.C161_double`
* `StdNN.C161_double_same`
* `StdNN.C161_double_huge`
* `StdNN.C161_double_blind`
* `StdNN.C161_tensor_pass`
* `StdNN.C161_tensor_exact`
* `StdNN.C161_bytes_floats`
* `StdNN.C162_decimal`
* `StdNN.C162_show1`
* `StdNN.C162_show2`
* `StdNN.C162_show_tensor_text`
* `StdNN.C162_show_tensor_int`
* `StdNN.C162_show_tensor_float`
* `StdNN.C162_show_tensor_undefined`
* `StdNN.C162_type_name`
* `StdNN.C163_col2im`
* `StdNN.C163_col2im1d`
* `StdNN.C163_image`
* `StdNN.C163_filter`
* `StdNN.C163_taps`
* `StdNN.C163_image_error`
* `StdNN.C163_filter_error`
* `StdNN.C163_image_ieee`
* `StdNN.C163_filter_ieee`
* `StdNN.C164_shape`
* `StdNN.C164_shape_line`
* `StdNN.C164_line`
* `StdNN.C164_line_adjoint`
* `StdNN.C164_adjoint`
* `StdNN.C164_adjoint_image`
* `StdNN.C164_adjoint_filter`
* `StdNN.C164_right`
* `StdNN.C164_cropped_away`
* `StdNN.C164_left`
* `StdNN.Shared.C165_separate`
* `StdNN.Shared.C165_mmt_left`
* `StdNN.Shared.C165_mmt_right`
* `StdNN.Shared.C165_mtm_right`
* `StdNN.Shared.C165_mtm_left`
* `StdNN.Shared.C165_vector`
* `StdNN.Shared.C165_matmul_left`
* `StdNN.Shared.C165_matmul_right`
* `StdNN.Shared.C165_mmt_when`
* `StdNN.Shared.C165_mtm_when`
* `StdNN.Shared.C165_to_first`
* `StdNN.Shared.C165_to_last`
* `StdNN.Shared.C165_transpose_when`
* `StdNN.Shared.C166_mul_grad`
* `StdNN.Shared.C166_copy`
* `StdNN.Shared.C166_xentropy`
* `StdNN.Shared.C166_sum_rows`
* `StdNN.Shared.C166_bias`
* `StdNN.Shared.C166_softmax_onto_output`
* `StdNN.Shared.C166_softmax_onto_gradient`
* `StdNN.Shared.C166_conv_any`
* `StdNN.Shared.C166_conv`
* `StdNN.Shared.C166_conv_nchw`
* `StdNN.Shared.C166_conv_grad`
* `StdNN.Shared.C166_pool`
* `StdNN.Shared.C166_pool_nchw`
* `StdNN.Shared.C166_pool_hwc`
* `StdNN.Shared.C166_pool_nhwc`
* `StdNN.C167_xentropy`
* `StdNN.C167_softmax`
* `StdNN.C167_scores`
* `StdNN.C167_bias`
* `StdNN.C167_deep`
* `StdNN.C167_deep_params`
* `StdNN.Prog.C168_threads`
* `StdNN.Prog.C168_any_order`
* `StdNN.Prog.C168_deterministic`
* `StdNN.Prog.C168_call`
* `StdNN.Prog.C168_matmul`
* `StdNN.Prog.C168_clash`
* `StdNN.Prog.C169_accesses`
* `StdNN.Prog.C169_races`
* `StdNN.Prog.C169_counts`
* `StdNN.Prog.C169_matmul`
* `StdNN.C170_runs`
* `StdNN.C170_descent`
* `StdNN.C170_best`
* `StdNN.C170_exact`
* `StdNN.Prog.C171_network`
* `StdNN.Prog.C171_turns`
* `StdNN.Prog.C172_shares`
* `StdNN.Prog.C172_turns`
* `StdNN.Prog.C172_gradient`
* `StdNN.C173_step`
* `StdNN.C173_steps`
* `StdNN.C173_train`
* `StdNN.C173_descent`
* `StdNN.C173_exact`
* `StdNN.Prog.C174_added`
* `StdNN.Prog.C174_weights`
* `StdNN.Prog.C174_bias`
* `StdNN.Prog.C174_divisions`
* `StdNN.Prog.C175_subtracted`
* `StdNN.Prog.C175_step`
* `StdNN.Prog.C175_run`
* `StdNN.Prog.C175_train`
* `StdNN.Prog.C175_rounded`
* `StdNN.Prog.C175_deterministic`
* `StdNN.Prog.C176_races`
* `StdNN.Prog.C176_contents`
* `StdNN.Prog.C176_drf`
* `StdNN.Prog.C176_any_order`
* `StdNN.Prog.C176_two`
* `StdNN.Prog.C176_writes`
* `StdNN.Prog.C176_blocks`
* `StdNN.Prog.C176_step`
