{
 "claims": [
  {
   "property": "C01",
   "status": "proved",
   "theorems": [
    "CN24.Props.C01_address_in_range",
    "CN24.Props.C01_address_injective",
    "CN24.Props.C01_address_surjective",
    "CN24.Props.C01_write_read"
   ],
   "note": "Addressing is a bijection between in-range coordinates and element positions; writes are read back and frame everything else."
  },
  {
   "property": "C02",
   "status": "proved",
   "theorems": [
    "CN24.Props.C02_serialize_roundtrip",
    "CN24.Props.C02_serialize_empty",
    "CN24.Props.C02_serialize_injective"
   ],
   "note": "Both reading modes (memory mapped or not), any surrounding bytes."
  },
  {
   "property": "C03",
   "status": "proved",
   "theorems": [
    "CN24.Props.C03_load_file",
    "CN24.Props.C03_load_terminates",
    "CN24.Props.C03_load_truncated"
   ],
   "note": "Complete files, any cut point, and termination on arbitrary bytes."
  },
  {
   "property": "C04",
   "status": "partial",
   "theorems": [
    "CN24.Props.C04_roundtrip_partial",
    "CN24.Props.C04_roundtrip_bits_partial",
    "CN24.Props.C04_large_tensor_lost"
   ],
   "note": "Proved below 2^29 elements; disproved from 2^30 elements on (32-bit byte counter), see C04_large_tensor_lost."
  },
  {
   "property": "C05",
   "status": "proved",
   "theorems": [
    "CN24.Props.C05_compress_in_bounds",
    "CN24.Props.C05_compress_never_overruns"
   ],
   "note": "The buffer size of Compress is sufficient for every tensor."
  },
  {
   "property": "C06",
   "status": "partial",
   "theorems": [
    "CN24.Props.C06_reads_past_input",
    "CN24.Props.C06_writes_past_output",
    "CN24.Props.C06_wellformed_safe_partial",
    "CN24.Props.C06_overlong_record_overruns"
   ],
   "note": "Disproved with two witnesses; well-formed records whose expansion fits the announced size are safe, and exactly those that expand too far overrun."
  },
  {
   "property": "C07",
   "status": "proved",
   "theorems": [
    "CN24.Props.C07_compressed_file",
    "CN24.Props.C07_target_sample_unchecked"
   ],
   "note": "For any list of storable tensors; also records that the fast path does not check the target sample."
  },
  {
   "property": "C08",
   "status": "proved",
   "theorems": [
    "CN24.Props.C08_copySample_success_iff",
    "CN24.Props.C08_copySample_effect",
    "CN24.Props.C08_copySample_failure",
    "CN24.Props.C08_copySample_no_maps",
    "CN24.Props.C08_copyMap_effect"
   ],
   "note": "Exact success condition, effect and frame for a source with at least one map; the no-maps case is settled separately."
  },
  {
   "property": "C09",
   "status": "proved",
   "theorems": [
    "CN24.Props.C09_transpose_moves",
    "CN24.Props.C09_transpose_involution"
   ],
   "note": "Over any valid tensor (buffer length matches dims; an empty tensor has all dims 0, as Resize guarantees)."
  },
  {
   "property": "C10",
   "status": "proved",
   "theorems": [
    "CN24.Props.C10_maximum",
    "CN24.Props.C10_pixelMaximum"
   ],
   "note": "Element type is any linear order; NaN scores are outside the statement (see DESIGN.md)."
  },
  {
   "property": "C11",
   "status": "partial",
   "theorems": [
    "CN24.Props.C11_ownership_partial",
    "CN24.Props.C11_no_leak_partial",
    "CN24.Props.C11_moved_shadow_released_twice",
    "CN24.Props.C11_moved_mapping_undefined",
    "CN24.Props.C11_remapped_tensor_unreadable"
   ],
   "note": "Proved for every history of supported uses, with exclusive ownership and no leaks; disproved for moved shadows, moved mappings and re-mapped tensors."
  },
  {
   "property": "C12",
   "status": "partial",
   "theorems": [
    "CN24.Props.C12_protocol_partial",
    "CN24.Props.C12_misplaced_calls_ignored",
    "CN24.Props.C12_identifiers",
    "CN24.Props.C12_late_registration_undefined"
   ],
   "note": "Proved for every call sequence that registers statistics before Initialize; disproved (undefined behaviour) for a statistic registered later."
  },
  {
   "property": "C13",
   "status": "proved",
   "theorems": [
    "CN24.Props.C13_generate",
    "CN24.Props.C13_snapshot"
   ],
   "note": "For every proper call sequence (see C12) and any fixed-initial-value statistics, for Generate and Snapshot, all sinks."
  },
  {
   "property": "C14",
   "status": "proved",
   "theorems": [
    "CN24.Props.C14_unwritable_file_undefined",
    "CN24.Props.C14_csv_columns",
    "CN24.Props.C14_csv_no_statistics"
   ],
   "note": "For any number printing functions without commas; opening an unwritable file is undefined (C14_unwritable_file_undefined)."
  },
  {
   "property": "C15",
   "status": "partial",
   "theorems": [
    "CN24.Props.C15_grammar_partial",
    "CN24.Props.C15_accepted_exactly",
    "CN24.Props.C15_backslash_accepted"
   ],
   "note": "Exact characterisation of the accepted strings; equals the documented grammar for strings without backslashes, disproved for a backslash in a value."
  },
  {
   "property": "C16",
   "status": "proved",
   "theorems": [
    "CN24.Props.C16_extraction",
    "CN24.Props.C16_extraction_text",
    "CN24.Props.C16_construct"
   ],
   "note": "For every valid descriptor and all strings; construction returns class and configuration text."
  },
  {
   "property": "C17",
   "status": "partial",
   "theorems": [
    "CN24.Props.C17_invalid_unchanged",
    "CN24.Props.C17_result_valid",
    "CN24.Props.C17_inject_again",
    "CN24.Props.C17_seed_determined_partial",
    "CN24.Props.C17_nonnumeric_seed_wins",
    "CN24.Props.C17_other_parameter_changed",
    "CN24.Props.C17_large_seed_undefined",
    "CN24.Props.C17_convolution_ignores_seed"
   ],
   "note": "Validity, type, re-injection and invalid input proved for all strings; reading back the seed and keeping other parameters proved for numeric seeds up to INT_MAX without other keys ending in \"seed\", disproved otherwise with witnesses."
  },
  {
   "property": "C18",
   "status": "partial",
   "theorems": [
    "CN24.Props.C18_read_partial",
    "CN24.Props.C18_absent_partial",
    "CN24.Props.C18_count_partial",
    "CN24.Props.C18_kernel_size_partial",
    "CN24.Props.C18_longer_name_read",
    "CN24.Props.C18_size_taken_from_other_parameter"
   ],
   "note": "Proved for lines in which no earlier key ends in the key; disproved for longer names and for sizes without an x."
  },
  {
   "property": "C19",
   "status": "proved",
   "theorems": [
    "CN24.Net.C19_feedForward_order",
    "CN24.Net.C19_feedForward_values",
    "CN24.Net.C19_cycle_diverges"
   ],
   "note": "Order, values and repetition for every closed acyclic graph; a graph with a cycle never finishes."
  },
  {
   "property": "C20",
   "status": "proved",
   "theorems": [
    "CN24.Net.C20_addNode_registers",
    "CN24.Net.C20_backPropagate_order"
   ],
   "note": "For graphs whose connections are registered, which AddNode (any order) and Initialize establish."
  },
  {
   "property": "C21",
   "status": "partial",
   "theorems": [
    "CN24.Net.C21_single_consumer_partial",
    "CN24.Net.C21_idempotent",
    "CN24.Net.C21_initialized_runs",
    "CN24.Net.C21_second_buffer_lost"
   ],
   "note": "Proved for every graph in which only input nodes have several output buffers (true for all layers of the library); disproved for other nodes with several buffers: readers of the second buffer are redirected to the data of the first."
  },
  {
   "property": "C22",
   "status": "proved",
   "theorems": [
    "CN24.Net.C22_restore",
    "CN24.Net.C22_later_nodes_kept",
    "CN24.Net.C22_truncated",
    "CN24.Net.C22_no_nodes_undefined"
   ],
   "note": "Includes truncated files and arbitrary trailing bytes; a network without nodes is undefined behaviour."
  },
  {
   "property": "C23",
   "status": "partial",
   "theorems": [
    "CN24.Net.C23_complete_partial",
    "CN24.Net.C23_foreign_node_accepted",
    "CN24.Net.C23_cycle_accepted"
   ],
   "note": "Inputs, outputs, names and buffers are checked; connections to nodes outside the graph and cycles are accepted (both disproved by witnesses)."
  },
  {
   "property": "C24",
   "status": "proved",
   "theorems": [
    "CN24.Props.C24_gradient",
    "CN24.Props.C24_loss_sign"
   ],
   "note": "For inputs of equal dimensions with a weight for each pixel, exact arithmetic over any field with 2 ≠ 0."
  },
  {
   "property": "C25",
   "status": "partial",
   "theorems": [
    "CN24.Props.C25_construct_fits",
    "CN24.Props.C25_step_partial",
    "CN24.Props.C25_epoch_partial",
    "CN24.Props.C25_divisor_wraps"
   ],
   "note": "Every weight, every iteration of an epoch, with an arbitrary network function for the gradients; exact arithmetic. Partial because the divisor of the average, number of label pixels times sequential batches, is a 32-bit product: proved below 2^32 (C25_step_partial, C25_epoch_partial); above, the gradient is divided by the remainder (C25_divisor_wraps)."
  },
  {
   "property": "C26",
   "status": "partial",
   "theorems": [
    "CN24.Props.C26_first_weight_partial",
    "CN24.Props.C26_reset",
    "CN24.Props.C26_other_weights_stay",
    "CN24.Props.C26_flag_cleared_too_early"
   ],
   "note": "Disproved: the first-iteration flag is cleared after the first weight, so at most one weight of the network makes the plain step and all others (slope above 1e-15) stay; proved for the very first weight."
  },
  {
   "property": "C27",
   "status": "proved",
   "theorems": [
    "CN24.Props.C27_epochs_are_permutations",
    "CN24.Props.C27_histories_defined",
    "CN24.Props.C27_tensor_stream"
   ],
   "note": "For every history of mode changes and batches, for every draw of the random source; std::shuffle is assumed to permute."
  },
  {
   "property": "C28",
   "status": "partial",
   "theorems": [
    "CN24.Props.C28_test_run",
    "CN24.Props.C28_every_sample_partial",
    "CN24.Props.C28_large_test_set",
    "CN24.Props.C28_empty_test_set"
   ],
   "note": "A test run visits samples in order and padding positions are blank; the number of batches goes through float: proved below 2^24 batches, disproved beyond. An empty test set is fatal."
  },
  {
   "property": "C29",
   "status": "partial",
   "theorems": [
    "CN24.Props.C29_dimensions_partial",
    "CN24.Props.C29_construct",
    "CN24.Props.C29_testing_images_ignored",
    "CN24.Props.C29_training_samples_load_partial",
    "CN24.Props.C29_large_image_never_loads",
    "CN24.Props.C29_maps"
   ],
   "note": "Proved for training images and for testing images numbered from the number of training images on; the other testing images are ignored by the loop over the sizes and need not fit (disproved). The numbers of maps are those of the first pair (C29_maps)."
  },
  {
   "property": "C30",
   "status": "proved",
   "theorems": [
    "CN24.Props.C30_training_sample",
    "CN24.Props.C30_testing_sample",
    "CN24.Props.C30_out_of_range"
   ],
   "note": "For pairs that fit the announced dimensions with label values above the lowest float; an image of width or height 1 divides 0 by 0 in the prior (field arithmetic hides the NaN)."
  },
  {
   "property": "C31",
   "status": "partial",
   "theorems": [
    "CN24.Props.C31_training_partial",
    "CN24.Props.C31_testing_partial",
    "CN24.Props.C31_testing_sample_from_training",
    "CN24.Props.C31_testing_search_overrun",
    "CN24.Props.C31_maps",
    "CN24.Props.C31_small_image_counted"
   ],
   "note": "Training samples: proved for images at least as large as the patch and patch counts below 2^32. Testing samples: the code adds the number of testing (not training) patches to the index, so only proved for equal counts; disproved otherwise (training patches delivered, search table overrun). Images smaller than the patch are counted as 2^32-1 patches (disproved). The reported numbers of maps are those of the images and labels (C31_maps)."
  },
  {
   "property": "C32",
   "status": "proved",
   "theorems": [
    "CN24.Props.C32_im2col",
    "CN24.Props.C32_wrong_size_refused"
   ],
   "note": "Every element of the column tensor for all shapes, kernels, strides and paddings; mismatching sizes are refused."
  },
  {
   "property": "C33",
   "status": "partial",
   "theorems": [
    "CN24.Props.C33_adjoint_partial",
    "CN24.Props.C33_adjoint_unpadded_partial",
    "CN24.Props.C33_same_convolution_undefined",
    "CN24.Props.C33_gradient_misplaced"
   ],
   "note": "Adjointness proved where the column test of the code agrees with the intended one (in particular without horizontal padding for images at least as wide as high); disproved otherwise: out-of-bounds write for every padded 3x3 convolution on a square image, misplaced gradient on tall images."
  },
  {
   "property": "C34",
   "status": "proved",
   "theorems": [
    "CN24.Props.C34_gemm",
    "CN24.Props.C34_gemm_ignores_target",
    "CN24.Props.C34_gemv"
   ],
   "note": "As matrix equations over any commutative ring, with frame conditions and independence of C for beta = 0."
  },
  {
   "property": "C35",
   "status": "proved",
   "theorems": [
    "CN24.Props.C35_forward",
    "CN24.Props.C35_dropout_refused"
   ],
   "note": "Over any commutative ring, all geometries, groups and values, training without dropout and testing; training with dropout is refused by the host path."
  },
  {
   "property": "C36",
   "status": "partial",
   "theorems": [
    "CN24.Props.C36_constructor",
    "CN24.Props.C36_convolution",
    "CN24.Props.C36_max_pooling",
    "CN24.Props.C36_strided_pooling_partial",
    "CN24.Props.C36_strided_pooling_accepts_misfit",
    "CN24.Props.C36_strided_pooling_misfit_undefined"
   ],
   "note": "Proved for the convolution layer (sizes below 2^31) and plain max-pooling; the strided pooling layer counts positions correctly when the region fits but accepts images that are too small (disproved, the forward pass then reads outside the image)."
  },
  {
   "property": "C37",
   "status": "proved",
   "theorems": [
    "CN24.Props.C37_sms",
    "CN24.Props.C37_sms_involution"
   ],
   "note": "Element-wise and as an involution."
  },
  {
   "property": "C38",
   "status": "proved",
   "theorems": [
    "CN24.Props.C38_down",
    "CN24.Props.C38_up",
    "CN24.Props.C38_adjoint",
    "CN24.Props.C38_down_up"
   ],
   "note": "Formulas, adjointness and composition over any commutative ring."
  },
  {
   "property": "C39",
   "status": "partial",
   "theorems": [
    "CN24.Props.C39_forward",
    "CN24.Props.C39_gradient_partial",
    "CN24.Props.C39_lowest_region_misplaced"
   ],
   "note": "Forward proved; backward proved when every region holds a value above the start value of the search; disproved for regions of lowest values (gradient goes to pixel (0,0))."
  },
  {
   "property": "C40",
   "status": "partial",
   "theorems": [
    "CN24.Props.C40_forward",
    "CN24.Props.C40_gradient_partial",
    "CN24.Props.C40_positions_collide"
   ],
   "note": "Forward proved; backward proved when every window holds a value above the start value and the image has at most 2^24 pixels (positions are stored as float, collisions above shown)."
  },
  {
   "property": "C41",
   "status": "partial",
   "theorems": [
    "CN24.Props.C41_concat_forward_partial",
    "CN24.Props.C41_concat_backward_partial",
    "CN24.Props.C41_concat_refuses",
    "CN24.Props.C41_concat_loses_data",
    "CN24.Props.C41_sum_partial",
    "CN24.Props.C41_sum_width_mismatch",
    "CN24.Props.C41_sum_height_mismatch"
   ],
   "note": "Proved for inputs of equal size; disproved for others: the concatenation layer accepts inputs differing in both dimensions and loses data, the sum layer accepts different widths and then throws on every pass, and reads an uninitialised pointer for different heights."
  },
  {
   "property": "C42",
   "status": "proved",
   "theorems": [
    "CN24.Props.C42_forward",
    "CN24.Props.C42_backward",
    "CN24.Props.C42_connect",
    "CN24.Props.C42_adjoint"
   ],
   "note": "Over any commutative ring; forward, backward, adjointness and the layer's own size check."
  },
  {
   "property": "C43",
   "status": "proved",
   "theorems": [
    "CN24.Props.C43_counts",
    "CN24.Props.C43_reset",
    "CN24.Props.C43_consistent",
    "CN24.Props.C43_rates",
    "CN24.Props.C43_reset_unconnected"
   ],
   "note": "For inputs of the shapes the layer relies on (labels and weights of the extents of the predictions, at most as many maps as classes, no value below the smallest float), after any sequence of batches following Connect or Reset; datum and long double are an ordered field.  Also: Reset before Connect dereferences a null pointer."
  },
  {
   "property": "C44",
   "status": "partial",
   "theorems": [
    "CN24.Props.C44_counts",
    "CN24.Props.C44_reset",
    "CN24.Props.C44_partition",
    "CN24.Props.C44_thresholds",
    "CN24.Props.C44_monotone",
    "CN24.Props.C44_nonneg",
    "CN24.Props.C44_best_partial",
    "CN24.Props.C44_undefined_iff",
    "CN24.Props.C44_report_overrun",
    "CN24.Props.C44_weights_overrun"
   ],
   "note": "Counters, partition, thresholds, monotony and the choice of the best threshold are proved.  The report is defined only if some threshold has a defined F1 value: C44_report_overrun is a run in which UpdateAll indexes with 2^32-1.  Inputs with several maps are accepted although the weights are then read out of bounds (C44_weights_overrun)."
  },
  {
   "property": "C45",
   "status": "partial",
   "theorems": [
    "CN24.Props.C45_patches_partial",
    "CN24.Props.C45_mirrored",
    "CN24.Props.C45_centre",
    "CN24.Props.C45_mean",
    "CN24.Props.C45_labels_partial",
    "CN24.Props.C45_label_not_of_centre",
    "CN24.Props.C45_large_patch_overrun"
   ],
   "note": "C45_patches_partial covers patches smaller than twice the image; C45_labels_partial states which pixel the label really comes from. The code breaks the full property: C45_label_not_of_centre shows a label that is not the centre pixel's, C45_large_patch_overrun a large patch reading outside the image. C45_mirrored, C45_centre and C45_mean hold without restriction."
  },
  {
   "property": "C46",
   "status": "partial",
   "theorems": [
    "CN24.Props.C46_columns",
    "CN24.Props.C46_square_partial",
    "CN24.Props.C46_wide_image_stale",
    "CN24.Props.C46_tall_image_overrun",
    "CN24.Props.C46_shrinks"
   ],
   "note": "C46_square_partial covers square images, C46_columns says exactly what happens on images at least as wide as high. The code breaks the full property because its column loop runs up to the height: C46_wide_image_stale (columns not written) and C46_tall_image_overrun (out-of-bounds access on every tall image). Real arithmetic; window size at least 1."
  },
  {
   "property": "C47",
   "status": "partial",
   "theorems": [
    "CN24.Props.C47_partial",
    "CN24.Props.C47_single_class",
    "CN24.Props.C47_negative_outputs"
   ],
   "note": "C47_partial holds where some class output exceeds FLT_MIN. The code breaks the full property: C47_negative_outputs shows class 0 coloured although another class is higher. C47_single_class holds fully."
  },
  {
   "property": "C48",
   "status": "proved",
   "theorems": [
    "CN24.Props.C48_check",
    "CN24.Props.C48_restored",
    "CN24.Props.C48_correct_gradient",
    "CN24.Props.C48_layer"
   ],
   "note": "Loss is an arbitrary function of pass number and parameters; rounding of the perturbed weight is an arbitrary function. skip + 1 must not wrap to zero (the code then loops forever). OpenCL moves are left out."
  },
  {
   "property": "C49",
   "status": "proved",
   "theorems": [
    "CN24.Props.C49_sigmoid",
    "CN24.Props.C49_sigmoid_range",
    "CN24.Props.C49_tanh",
    "CN24.Props.C49_tanh_range",
    "CN24.Props.C49_relu",
    "CN24.Props.C49_relu_kink",
    "CN24.Props.C49_connect"
   ],
   "note": "Real arithmetic (no rounding); the kink of the rectifier is described by C49_relu_kink. The layer accepts exactly outputs of the shape of its input (C49_connect)."
  },
  {
   "property": "C50",
   "status": "proved",
   "theorems": [
    "CN24.Props.C50_accumulate",
    "CN24.Props.C50_outputs_share_data"
   ],
   "note": "Sum over any number of outputs; the data is shared through shadow tensors (ownership model)."
  },
  {
   "property": "C51",
   "status": "partial",
   "theorems": [
    "CN24.Props.C51_disjoint_parts",
    "CN24.Props.C51_reaches_end",
    "CN24.Props.C51_gemm",
    "CN24.Props.C51_gemm_product",
    "CN24.Props.C51_gemm_overlapping_rows_race",
    "CN24.Props.C51_gemv",
    "CN24.Props.C51_im2col",
    "CN24.Props.C51_add",
    "CN24.Props.C51_activation_forward",
    "CN24.Props.C51_activation_backward",
    "CN24.Props.C51_softmax",
    "CN24.Props.C51_resize_forward",
    "CN24.Props.C51_resize_backward",
    "CN24.Props.C51_concat_forward",
    "CN24.Props.C51_concat_backward",
    "CN24.Props.C51_spatial_forward",
    "CN24.Props.C51_spatial_backward",
    "CN24.Props.C51_accumulate",
    "CN24.Props.C51_lrn_forward_partial",
    "CN24.Props.C51_lrn_backward_partial",
    "CN24.Props.C51_lrn_tall_image_race",
    "CN24.Props.C51_max_pooling",
    "CN24.Props.C51_strided_pooling_forward",
    "CN24.Props.C51_strided_pooling_backward",
    "CN24.Props.C51_binary_stat",
    "CN24.Props.C51_error_weights"
   ],
   "note": "Every interleaving of the single memory accesses of the iterations ends, without races and out-of-range accesses, with the result of the sequential model: all 28 host loops marked parallel. GEMM needs row distance at least the number of columns (witness: otherwise a race). Local response normalisation only for images not higher than wide; for higher images a race is reached (C51_lrn_tall_image_race). Memory: sequentially consistent, buffers of a loop do not alias."
  },
  {
   "property": "C52",
   "status": "partial",
   "theorems": [
    "CN24.Props.C52_coherent_partial",
    "CN24.Props.C52_read",
    "CN24.Props.C52_former_shadow_overwrites",
    "CN24.Props.C52_former_shadow_fails",
    "CN24.Props.C52_former_shadow_dangles",
    "CN24.Props.C52_mapped_cannot_return",
    "CN24.Props.C52_mapped_cannot_be_shadowed",
    "CN24.Props.C52_moved_away_keeps_buffer",
    "CN24.Props.C52_copy_is_stale",
    "CN24.Props.C52_empty_fails",
    "CN24.Props.C52_orphaned_shadow"
   ],
   "note": "For every history that uses data on the side it was last moved to and does not resize, move away or destroy tensors that have shadows, map files or resize former shadows, all reads on both sides and through chains of shadows return the last written values (C52_coherent_partial, C52_read). The unrestricted claim is false: former shadows keep the other tensor's device buffer, mapped tensors cannot return from the device, moved-away tensors keep their buffer, the copy constructor copies stale host data, empty tensors fail, moved-away owners orphan their shadows (witnesses)."
  },
  {
   "property": "C53",
   "status": "partial",
   "theorems": [
    "CN24.Props.C53_starts_at_base",
    "CN24.Props.C53_never_increases_partial",
    "CN24.Props.C53_wraps_around"
   ],
   "note": "Proved while epoch*iterations+i fits 32 bits; beyond that the index wraps and the rate jumps back to the base rate (disproved)."
  },
  {
   "property": "C54",
   "status": "proved",
   "theorems": [
    "CN24.Props.C54_outside",
    "CN24.Props.C54_inside",
    "CN24.Props.C54_bounds",
    "CN24.Props.C54_decreasing",
    "CN24.Props.C54_images",
    "CN24.Props.C54_attained"
   ],
   "note": "For arbitrary scaling functions, so independent of the rounding of the scaled coordinates; the weight itself is computed in exact arithmetic. C54_attained shows that both bounds are sharp."
  },
  {
   "property": "C55",
   "status": "partial",
   "theorems": [
    "CN24.Props.C55_row",
    "CN24.Props.C55_partial",
    "CN24.Props.C55_maps_not_written"
   ],
   "note": "C55_partial covers samples whose values lie along the width; C55_row says what is computed for every shape. The code breaks the full property for values along the maps: C55_maps_not_written."
  },
  {
   "property": "C56",
   "status": "partial",
   "theorems": [
    "CN24.Props.C56_fully_convolutional_size_partial",
    "CN24.Props.C56_patch_size",
    "CN24.Props.C56_stacks",
    "CN24.Props.C56_stack_bounds",
    "CN24.Props.C56_join",
    "CN24.Props.C56_stack_overrun_witness",
    "CN24.Props.C56_receptive_field",
    "CN24.Props.C56_receptive_field_strided_partial",
    "CN24.Props.C56_patch_agrees_with_image",
    "CN24.Props.C56_strided_patch_too_large",
    "CN24.Props.C56_border_in_one_direction",
    "CN24.Props.C56_other_image_refused",
    "CN24.Props.C56_padding_enlarges",
    "CN24.Props.C56_size_needed",
    "CN24.Props.C56_fully_connected_step",
    "CN24.Props.C56_unknown_layer_skipped",
    "CN24.Props.C56_fields_fit",
    "CN24.Props.C56_layers",
    "CN24.Props.C56_manual",
    "CN24.Props.C56_manual_hint",
    "CN24.Props.C56_manual_zero",
    "CN24.Props.C56_manual_adds_nothing"
   ],
   "note": "Fully convolutional output size, patch size and receptive field for all chains of convolutions, fully connected layers, poolings and activations, from the text of the description; stacks for all descriptions whose stack lines contain no 'f' and no '('. A size set by hand is used as written wherever the line is, the line recommended in the log reproduces the measured size, and a size of zero is ignored (C56_manual, C56_manual_hint, C56_manual_zero, C56_manual_adds_nothing). The numbers always fit the type int (C56_fields_fit). The code breaks the full property: stacks are not bounds-checked (C56_stack_bounds, C56_stack_overrun_witness), no border if only one direction needs one (C56_border_in_one_direction), padding beyond the kernel (C56_padding_enlarges), strided patches larger than the receptive field (C56_strided_patch_too_large), uninitialised size (C56_size_needed), passes that disagree (C56_fully_connected_step)."
  },
  {
   "property": "C57",
   "status": "partial",
   "theorems": [
    "CN24.Props.C57_parameter_gradients_partial",
    "CN24.Props.C57_input_gradient_partial",
    "CN24.Props.C57_input_gradient_undefined"
   ],
   "note": "Weight and bias gradients exact for every layer that need not propagate further and wherever COL2IM's column test is harmless; input gradient exact in the latter case; disproved (undefined) for padded 3x3 convolutions on square images."
  },
  {
   "property": "C58",
   "status": "proved",
   "theorems": [
    "CN24.Props.C58_spatial_prior"
   ],
   "note": "Over any field."
  },
  {
   "property": "C59",
   "status": "proved",
   "theorems": [
    "CN24.Props.C59_upscale",
    "CN24.Props.C59_downsample"
   ],
   "note": "Over any commutative ring (field for the mean)."
  },
  {
   "property": "C60",
   "status": "proved",
   "theorems": [
    "CN24.Net.C60_initialize_order",
    "CN24.Net.C60_initializeWeights_order"
   ],
   "note": "For every closed acyclic graph with registered connections. The layers handed to a layer are its readers, each as often as it reads with gradients."
  },
  {
   "property": "C61",
   "status": "partial",
   "theorems": [
    "CN24.Props.C61_matching_inputs_partial",
    "CN24.Props.C61_refused",
    "CN24.Props.C61_accepted_but_undefined"
   ],
   "note": "Matching inputs are accepted and processed, different sample or element counts refused; accepted inputs of different shape are read out of bounds (disproved)."
  },
  {
   "property": "C62",
   "status": "proved",
   "theorems": [
    "CN24.Props.C62_clear_sample"
   ],
   "note": ""
  },
  {
   "property": "C63",
   "status": "proved",
   "theorems": [
    "CN24.Props.C63_blocks",
    "CN24.Props.C63_keeps_all"
   ],
   "note": "Exact arithmetic for the sums; the random draws are arbitrary."
  },
  {
   "property": "C64",
   "status": "partial",
   "theorems": [
    "CN24.Props.C64_square_partial",
    "CN24.Props.C64_wide_image_ignored"
   ],
   "note": "C64_square_partial covers square images and non-negative scales. On wide images the deltas of the last columns are ignored (C64_wide_image_ignored); tall images are undefined (C46_tall_image_overrun)."
  },
  {
   "property": "C65",
   "status": "partial",
   "theorems": [
    "CN24.Net.C65_gradient_partial",
    "CN24.Net.C65_data_exist",
    "CN24.Net.C65_partial_derivative_partial",
    "CN24.Net.C65_unread_output",
    "CN24.Net.C65_stopped_gradient",
    "CN24.Net.C65_sigmoid",
    "CN24.Net.C65_tanh",
    "CN24.Net.C65_relu",
    "CN24.Net.C65_resize",
    "CN24.Net.C65_upscale",
    "CN24.Net.C65_spatial_prior",
    "CN24.Net.C65_sum",
    "CN24.Net.C65_concat",
    "CN24.Net.C65_error",
    "CN24.Net.C65_convolution",
    "CN24.Net.C65_strided_pooling",
    "CN24.Net.C65_max_pooling",
    "CN24.Net.C65_segmentation_network",
    "CN24.Net.C65_softmax_copies",
    "CN24.Net.C65_lrn"
   ],
   "note": "For every acyclic wiring: if each layer satisfies the chain rule at the current point, gradients are stopped only in front of parts without parameters, and deltas of unread buffers are zero, the passes leave exactly the partial derivatives (reals instead of floats). The layer condition is proved for convolution without dropout, both pooling layers (no ties), the activation layers, local response normalisation (square images), resize, up-scaling, spatial prior, sum, concatenation and error layers, and put together for a whole segmentation network of any size (C65_segmentation_network). Without these conditions it is false: the deltas of unread outputs are never cleared and enter the gradient (C65_unread_output), a stopped connection loses the gradient (C65_stopped_gradient), softmax layers hand on the delta unchanged (C65_softmax_copies)."
  },
  {
   "property": "C66",
   "status": "partial",
   "theorems": [
    "CN24.Props.C66_input_gradient_partial",
    "CN24.Props.C66_initial",
    "CN24.Props.C66_input_penalty_partial",
    "CN24.Props.C66_penalty_slope_missing",
    "CN24.Props.C66_weight_gradient_partial",
    "CN24.Net.C66_weights_ignore_loss"
   ],
   "note": "Input deltas are exact if the loss weight is zero (C66_input_gradient_partial), in particular right after connecting (C66_initial); with it they are the exact part plus the loss weight times the derivative of the penalty by the offset (C66_input_penalty_partial), which is not the derivative by the input (C66_penalty_slope_missing); for every setting the weight deltas are the local learning rate times the gradient of the sum of all outputs plus the sparseness term (C66_weight_gradient_partial), which is not the gradient of the loss: the incoming deltas are ignored (C66_weights_ignore_loss). Missing: exact input deltas with the regulariser, whose part lacks the factor a in the code. Reals instead of floats."
  },
  {
   "property": "C67",
   "status": "partial",
   "theorems": [
    "CN24.Props.C67_load_png",
    "CN24.Props.C67_load_png_16",
    "CN24.Props.C67_load_jpg",
    "CN24.Props.C67_byte_values",
    "CN24.Props.C67_round_trip",
    "CN24.Props.C67_write_load",
    "CN24.Props.C67_write_jpg",
    "CN24.Props.C67_write_undefined",
    "CN24.Props.C67_silent_write",
    "CN24.Props.C67_silent_load",
    "CN24.Props.C67_unreachable_formats",
    "CN24.Props.C67_short_values"
   ],
   "note": "Loading 8-bit and 16-bit PNG and JPEG files, the agreement of what is written to PNG and handed to the JPEG encoder (C67_write_jpg), the bit-exact round trip and the error bound are proved in exact single-precision arithmetic for all images, with the values of 8-bit and 16-bit samples (C67_byte_values, C67_short_values); what libpng and libjpeg decode is trusted. The code breaks the rest: values above 1 are undefined behaviour when stored (C67_write_undefined), tensors that are not one RGB sample leave an empty file without a report (C67_silent_write), palettes, other depths and missing JPEG files leave the tensor as it was without a report (C67_silent_load), .Tensor and .jpeg files are never recognised (C67_unreachable_formats)."
  },
  {
   "property": "C68",
   "status": "partial",
   "theorems": [
    "CN24.Props.C68_load",
    "CN24.Props.C68_directory",
    "CN24.Props.C68_descriptor",
    "CN24.Props.C68_pairs",
    "CN24.Props.C68_copy_label_partial",
    "CN24.Props.C68_copy_image_partial",
    "CN24.Props.C68_exclusive",
    "CN24.Props.C68_invalid_index",
    "CN24.Props.C68_copy_undefined",
    "CN24.Props.C68_alpha_fatal",
    "CN24.Props.C68_short_name_ends",
    "CN24.Props.C68_missing_files",
    "CN24.Props.C68_sixteen_bit_label",
    "CN24.Props.C68_sizes"
   ],
   "note": "Loading is proved for all lists (C68_load, C68_pairs for histories of loads, C68_sizes for the reported sizes), the contents of the target for all 8-bit images (C68_copy_label_partial, C68_copy_image_partial). The code breaks the rest: CopySample never returns a value for a valid index (C68_copy_undefined), short names end the import silently (C68_short_name_ends), missing JPEG pairs are counted (C68_missing_files), labels with an alpha channel are accepted but end the program later (C68_alpha_fatal), 16-bit label colours are not recognised (C68_sixteen_bit_label). For a single class the distance formula is a parameter."
  },
  {
   "property": "C69",
   "status": "partial",
   "theorems": [
    "CN24.Props.C69_create",
    "CN24.Props.C69_accepted",
    "CN24.Props.C69_streams",
    "CN24.Props.C69_truncated_colors",
    "CN24.Props.C69_default_keeps_kitti",
    "CN24.Props.C69_keyword_prefix",
    "CN24.Props.C69_color_words",
    "CN24.Props.C69_early_weights",
    "CN24.Props.C69_patch_testing_map",
    "CN24.Props.C69_patch_testing_only",
    "CN24.Props.C69_patch_files_partial"
   ],
   "note": "Proved for all descriptions in any order in which the class names come before colours and weights (C69_create), and for every accepted text (C69_accepted). The code breaks the rest: colours missing at the end of the file are black (C69_truncated_colors), words are accepted as colours (C69_color_words), weights before the classes are dropped (C69_early_weights), the default error function cannot be restored (C69_default_keeps_kitti), keywords match as prefixes (C69_keyword_prefix), and in the patch version the testing map shows the training file (C69_patch_testing_map) or ends the program (C69_patch_testing_only)."
  },
  {
   "property": "C70",
   "status": "partial",
   "theorems": [
    "CN24.Props.C70_create_partial",
    "CN24.Props.C70_training_only",
    "CN24.Props.C70_testing_is_training",
    "CN24.Props.C70_count_terminates",
    "CN24.Props.C70_odd"
   ],
   "note": "Proved without memory mapping (C70_create_partial) and for training images in every configuration (C70_training_only). In the default configuration of a POSIX system the code breaks it: the testing descriptor is opened on the training file, so testing images and labels of matching sizes are those of the training file (C70_testing_is_training)."
  },
  {
   "property": "C71",
   "status": "partial",
   "theorems": [
    "CN24.Props.C71_settings",
    "CN24.Props.C71_layers_are_other",
    "CN24.Props.C71_settings_are_foreign",
    "CN24.Props.C71_prefix_words"
   ],
   "note": "Proved for all descriptions whose setting lines are well formed (C71_settings), with the independence of settings and layers in both directions (C71_layers_are_other, C71_settings_are_foreign). The code breaks the last sentence: keywords match as prefixes, a keyword without a value ends the program or leaves the setting undefined, and unknown methods are ignored (C71_prefix_words)."
  },
  {
   "property": "C72",
   "status": "partial",
   "theorems": [
    "CN24.Props.C72_tests_do_not_matter",
    "CN24.Props.C72_nothing_carried_over",
    "CN24.Props.C72_input_layer",
    "CN24.Props.C72_tensor_stream",
    "CN24.Props.C72_tests_do_not_matter_stream",
    "CN24.Props.C72_split_hybrid",
    "CN24.Props.C72_split_partial",
    "CN24.Props.C72_rows",
    "CN24.Props.C72_test_loss",
    "CN24.Props.C72_momentum_lost",
    "CN24.Props.C72_momentum_survives_load",
    "CN24.Props.C72_stale_epoch",
    "CN24.Props.C72_diluted"
   ],
   "note": "Proved: tests never influence training (C72_tests_do_not_matter, for tensor streams C72_tests_do_not_matter_stream), the rows of every session (C72_rows) and the loss of a test (C72_test_loss). Splitting a training command is proved with a second network for testing (C72_split_hybrid) and otherwise without momentum (C72_split_partial). The code breaks the rest: every command resets the momentum unless there is a second network (C72_momentum_lost), then loading parameters does not (C72_momentum_survives_load); the row of a test can name a stale epoch (C72_stale_epoch); the average is over more positions than samples (C72_diluted)."
  },
  {
   "property": "C73",
   "status": "partial",
   "theorems": [
    "CN24.Props.C73_second_factory",
    "CN24.Props.C73_same_parameters",
    "CN24.Props.C73_shared_partial",
    "CN24.Props.C73_again",
    "CN24.Props.C73_single",
    "CN24.Props.C73_unmarked_removes"
   ],
   "note": "Proved for every description in which the word flatten occurs only in ?flatten lines and comments: the second factory accepts it too (C73_second_factory), the parameters agree (C73_same_parameters), all are shared without an access outside the lists (C73_shared_partial) and sharing again changes nothing (C73_again); without patches there is one network (C73_single). The code breaks the rest: flatten anywhere in a layer line removes the layer from the second network only, and the loop then accesses memory outside the list (C73_unmarked_removes)."
  },
  {
   "property": "C74",
   "status": "partial",
   "theorems": [
    "CN24.Props.C74_documented_partial",
    "CN24.Props.C74_script",
    "CN24.Props.C74_save_load",
    "CN24.Props.C74_prompt_goes_on",
    "CN24.Props.C74_prompt_ends",
    "CN24.Props.C74_effects",
    "CN24.Props.C74_nameless",
    "CN24.Props.C74_tstat_alone",
    "CN24.Props.C74_graph_misread",
    "CN24.Props.C74_load_misread",
    "CN24.Props.C74_numbers_misread",
    "CN24.Props.C74_set_epochs",
    "CN24.Props.C74_space_in_name",
    "CN24.Props.C74_quit_not_recognised",
    "CN24.Props.C74_prefixes"
   ],
   "note": "Proved: C74_documented_partial (all documented commands except two kinds of file names), C74_script, C74_save_load, C74_prompt_goes_on, C74_prompt_ends, C74_effects, C74_nameless, C74_tstat_alone. The code breaks the rest: the word test in a file name draws the other network (C74_graph_misread), last_layer= in a name is an option (C74_load_misread), names end at a space (C74_space_in_name), wrong numbers and keys are silently replaced (C74_numbers_misread, C74_set_epochs), words are matched by their beginnings (C74_prefixes), and quit with a space or a carriage return after it does not end a script (C74_quit_not_recognised)."
  },
  {
   "property": "C75",
   "status": "partial",
   "theorems": [
    "CN24.Props.C75_padding",
    "CN24.Props.C75_coordinates_partial",
    "CN24.Props.C75_coordinates_undefined",
    "CN24.Props.C75_classify_partial",
    "CN24.Props.C75_classify_undefined"
   ],
   "note": "Proved end to end for all images whose height is a multiple of eight or whose padded height is at most the padded width: C75_padding, C75_coordinates_partial, C75_classify_partial (pixels without an output above the smallest positive float get class 0, see C47). For all other images, that is portrait images with padding below, the loop over x runs to the height instead of the width and writes outside the helper tensor: C75_coordinates_undefined, C75_classify_undefined."
  },
  {
   "property": "C76",
   "status": "partial",
   "theorems": [
    "CN24.Props.C76_trim",
    "CN24.Props.C76_trim_repairs",
    "CN24.Props.C76_trim_ends",
    "CN24.Props.C76_trim_crash_partial",
    "CN24.Props.C76_trim_crash_loses",
    "CN24.Props.C76_trim_word_erases",
    "CN24.Props.C76_trim_missing",
    "CN24.Props.C76_compress",
    "CN24.Props.C76_compress_in_place",
    "CN24.Props.C76_compress_missing_input",
    "CN24.Props.C76_compress_truncated_mixes",
    "CN24.Props.C76_same_as_list",
    "CN24.Props.C76_list_converts",
    "CN24.Props.C76_make_file",
    "CN24.Props.C76_direct_partial",
    "CN24.Props.C76_direct_undefined",
    "CN24.Props.C76_missing_pair_hides"
   ],
   "note": "Proved: C76_trim, C76_trim_repairs, C76_trim_ends, C76_compress, C76_same_as_list, C76_list_converts, C76_make_file. In part: C76_trim_crash_partial (what an interruption leaves is the old file or a beginning of the new one), C76_direct_partial (three channels or more). False in the code: an interruption can lose all tensors (C76_trim_crash_loses), a word instead of a number erases the file (C76_trim_word_erases), a missing file makes the tool run forever (C76_trim_missing), compressing in place loses everything (C76_compress_in_place), a wrong input name empties the output (C76_compress_missing_input), direct labels read outside grey label images (C76_direct_undefined), a file cut off within its last tensor is compressed with values of the tensor before it (C76_compress_truncated_mixes), and a pair of missing JPEG files hides all later pairs (C76_missing_pair_hides)."
  },
  {
   "property": "C77",
   "status": "partial",
   "theorems": [
    "CN24.Props.C77_file",
    "CN24.Props.C77_lines",
    "CN24.Props.C77_crash",
    "CN24.Props.C77_select_erases",
    "CN24.Props.C77_start_erases",
    "CN24.Props.C77_missing_directory",
    "CN24.Props.C77_row",
    "CN24.Props.C77_late_selection"
   ],
   "note": "Proved for the rows since the last selection: contents after every further history (C77_file), as lines (C77_lines), with the values of each row traced back to the recorded values through the collector (C77_row), and under crashes during any later call (C77_crash). The code breaks the rest: selecting an experiment empties its file (C77_select_erases), initialising the collector empties the file of the default experiment (C77_start_erases) and is undefined if the directory csv is missing (C77_missing_directory), and a selection while recording is ignored (C77_late_selection). Number formatting and which files can be opened are parameters."
  },
  {
   "property": "C78",
   "status": "partial",
   "theorems": [
    "CN24.Props.C78_counts",
    "CN24.Props.C78_counts_pixels_partial",
    "CN24.Props.C78_table",
    "CN24.Props.C78_ratios",
    "CN24.Props.C78_correction_balances",
    "CN24.Props.C78_weights_applied_twice",
    "CN24.Props.C78_weighted_corrections_mislead",
    "CN24.Props.C78_one_map",
    "CN24.Props.C78_failed_sample_counted",
    "CN24.Props.C78_uninitialised_counted",
    "CN24.Props.C78_too_many_maps"
   ],
   "note": "Proved: closed form of both counts for every well-formed dataset and every initial memory (C78_counts), equality with the number of pixels if all class weights are 1 (C78_counts_pixels_partial), the columns of the tables (C78_table, C78_ratios), that the corrections of the first table balance the dataset when the tool is run again (C78_correction_balances), and that with one label map all pixels count for class 0 (C78_one_map). The code breaks the rest: the first table applies the class weights once and the second one twice (C78_weights_applied_twice), so the corrections of the second table do not balance (C78_weighted_corrections_mislead); samples that fail to load are counted from old or uninitialised memory (C78_failed_sample_counted, C78_uninitialised_counted); more label maps than classes write out of bounds (C78_too_many_maps). Sums are exact instead of long double."
  },
  {
   "property": "C79",
   "status": "partial",
   "theorems": [
    "CN24.Props.C79_open",
    "CN24.Props.C79_commands",
    "CN24.Props.C79_write_back_partial",
    "CN24.Props.C79_write_loses",
    "CN24.Props.C79_end_of_input_loops",
    "CN24.Props.C79_reshape_word",
    "CN24.Props.C79_beyond_erases",
    "CN24.Props.C79_reshape_wraps",
    "CN24.Props.C79_reshape_negative",
    "CN24.Props.C79_write_refused",
    "CN24.Props.C79_truncated_shows_previous",
    "CN24.Props.C79_transpose_twice"
   ],
   "note": "Proved: the tensor the tool starts with (C79_open), the effect of every session that ends with q or quit (C79_commands) against a separate description of each command (Edits), and that transposing twice gives the tensor back (C79_transpose_twice). In part: what is written is read again (C79_write_back_partial). False in the code: writing one of several tensors removes the others (C79_write_loses), without q the tool never ends (C79_end_of_input_loops), a word instead of a size uses variables never stored to (C79_reshape_word), a number beyond the end silently shows an empty tensor that write then puts in place of the file (C79_beyond_erases), reshape accepts sizes whose product is right only modulo 2^64 (C79_reshape_wraps) and negative sizes (C79_reshape_negative), a refused write is not reported (C79_write_refused), and values cut off the file are shown as those of the tensor before (C79_truncated_shows_previous). Patch extraction is a parameter here (see C45), and so is the conversion of a value to a byte."
  },
  {
   "property": "C80",
   "status": "partial",
   "theorems": [
    "CN24.Props.C80_set_all",
    "CN24.Props.C80_sms",
    "CN24.Props.C80_down",
    "CN24.Props.C80_up",
    "CN24.Props.C80_im2col",
    "CN24.Props.C80_col2im",
    "CN24.Props.C80_col2im_host_partial",
    "CN24.Props.C80_same_convolution_differs",
    "CN24.Props.C80_set_one_partial",
    "CN24.Props.C80_set_one_misses",
    "CN24.Props.C80_set_one_overruns",
    "CN24.Props.C80_im2col_overruns",
    "CN24.Props.C80_sigmoid",
    "CN24.Props.C80_tanh",
    "CN24.Props.C80_max_pooling",
    "CN24.Props.C80_max_pooling_gradient",
    "CN24.Props.C80_advanced_pooling",
    "CN24.Props.C80_tie_differs"
   ],
   "note": "Proved for every schedule, by comparison with the host model: filling a whole tensor (C80_set_all), SMS, DOWN, UP, IM2COL (C80_sms, C80_down, C80_up, C80_im2col), sigmoid and tanh (C80_sigmoid, C80_tanh), the outputs of max pooling (C80_max_pooling) and of advanced max pooling (C80_advanced_pooling). COL2IM on the device is the adjoint of IM2COL for every geometry (C80_col2im); it agrees with the host where the host is right (C80_col2im_host_partial). The gradients of both poolings on the device go to the first greatest value in row order, without the restrictions the host needs (C80_max_pooling_gradient, C80_advanced_pooling). False in the code: filling one sample uses the number of samples instead of the number of maps, so it is right only if they agree (C80_set_one_partial), leaves a part of the sample (C80_set_one_misses) or writes past the buffer (C80_set_one_overruns); IM2COL on the device does not check the size of its target (C80_im2col_overruns); COL2IM differs from the host for every padded 3x3 convolution (C80_same_convolution_differs), the host being wrong; ties in max pooling send the gradient to different positions (C80_tie_differs). Arithmetic is exact; the order of summation is that of the code on both sides."
  },
  {
   "property": "C81",
   "status": "partial",
   "theorems": [
    "CN24.DeviceNet.C81_same_as_host_partial",
    "CN24.DeviceNet.C81_read_partial",
    "CN24.DeviceNet.C81_training_partial",
    "CN24.DeviceNet.C81_helper_stale"
   ],
   "note": "Proved for every sequence of steps (C81_same_as_host_partial), with what the host reads after a move (C81_read_partial), and for any number of training iterations in the orders in which every graph without cycles runs its passes (C81_training_partial); grouped convolutions whose products each overwrite a part of a tensor moved without its contents, shadows whose own flag never changes, and loss functions that move nothing are included. The layers' loops and kernels are arbitrary functions with the footprints of the layers; that kernel and loop compute the same is C80. False in the code, hence partial: the helper output of the input layer is written on the host without a move, so a layer that uses it on the device keeps seeing the first batch (C81_helper_stale); networks built from description files only use it on the host."
  },
  {
   "property": "C82",
   "status": "partial",
   "theorems": [
    "CN24.Props.C82_parameters_partial",
    "CN24.Props.C82_order_partial",
    "CN24.Props.C82_seed_partial",
    "CN24.Props.C82_longer_name",
    "CN24.Props.C82_half_a_size",
    "CN24.Props.C82_not_checked"
   ],
   "note": "Proved for every documented descriptor (C82_parameters_partial), with the independence of order (C82_order_partial) and of seeds (C82_seed_partial). The conversion of text to floating-point numbers is a parameter. False in the code, hence partial: a name that only ends in a known name is taken for it (C82_longer_name), a size that is one number takes its second number from another parameter (C82_half_a_size), and the checks of the other constructor are missing, so that connecting a convolution with stride 0 divides by zero (C82_not_checked)."
  },
  {
   "property": "C83",
   "status": "partial",
   "theorems": [
    "CN24.Props.C83_convolution_partial",
    "CN24.Props.C83_normalisation_partial",
    "CN24.Props.C83_pooling_partial",
    "CN24.Props.C83_activation_partial",
    "CN24.Props.C83_upscale_partial",
    "CN24.Props.C83_output_partial",
    "CN24.Props.C83_classes",
    "CN24.Props.C83_spatial_prior",
    "CN24.Props.C83_fully_connected_partial",
    "CN24.Props.C83_no_neurons",
    "CN24.Props.C83_longer_name",
    "CN24.Props.C83_half_a_size",
    "CN24.Props.C83_flatten_drops"
   ],
   "note": "Proved for every line whose parameters fit the names the layer knows and that does not contain the words replaced beforehand: convolutions (C83_convolution_partial), normalisations (C83_normalisation_partial), the poolings (C83_pooling_partial), activations (C83_activation_partial), scaling (C83_upscale_partial), the output (C83_output_partial), fully connected layers (C83_fully_connected_partial), and without restriction (o) (C83_classes) and the spatial prior (C83_spatial_prior). The conversion of text to floating-point numbers is a parameter. False in the code, hence partial: names that end in a known name are taken for it (C83_longer_name), a size of one number takes its second from another parameter (C83_half_a_size), a fully connected line without neurons ends the program with an exception (C83_no_neurons), and a line that contains the word flatten anywhere is left out silently (C83_flatten_drops)."
  },
  {
   "property": "C84",
   "status": "partial",
   "theorems": [
    "CN24.Props.C84_image_is_patches_partial",
    "CN24.Props.C84_training_sample_partial",
    "CN24.Props.C84_label_shifted",
    "CN24.Props.C84_label_shifted_differs",
    "CN24.Props.C84_padding_differs"
   ],
   "note": "Proved from the text of the description to the values: for all chains without padding whose border is in both directions or none, the output for whole images is, pixel by pixel, the output for the patches (C84_image_is_patches_partial), and the value for a sample of the patch dataset is the value at the labelled pixel (C84_training_sample_partial), if the network reduces the image or its border can be halved. Arithmetic is that of an ordered field, the exponential function a parameter. False in the code, hence partial: without reduction and with an odd border (kernels of even size) the value learnt for a label appears one pixel before the labelled one (C84_label_shifted, C84_label_shifted_differs); with padded convolutions the network for patches pads every patch and never sees what the other one sees (C84_padding_differs)."
  },
  {
   "property": "C85",
   "status": "partial",
   "theorems": [
    "CN24.NetTrain.C85_gradient_partial",
    "CN24.NetTrain.C85_downsampling_fatal",
    "CN24.NetTrain.C85_chain",
    "CN24.NetTrain.C85_downsampling_witness"
   ],
   "note": "Proved for every text that AddLayers accepts, by an invariant over its lines: the nodes are wired without cycles, both passes end, and if every layer that depends on parameters is read and can be differentiated at the current data, the gradient of every parameter is the partial derivative of the explicit error of the network (C85_gradient_partial). Chains in which down-sampling comes first always meet the conditions on the description (C85_chain). Real arithmetic. Missing, hence partial: H-Max layers (C66), dropout, convolutions with horizontal padding or images higher than wide that need gradients (C57), images that are not square in normalisation (C50), ties in pooling, rectifiers at zero. False in the code: down-sampling behind a layer with parameters is accepted, but the first backward pass ends the program (C85_downsampling_fatal, C85_downsampling_witness)."
  },
  {
   "property": "C86",
   "status": "partial",
   "theorems": [
    "CN24.LossSampling.C86_batches",
    "CN24.LossSampling.C86_reported_loss",
    "CN24.LossSampling.C86_step_partial",
    "CN24.LossSampling.C86_step_shrinks",
    "CN24.LossSampling.C86_tensor_stream"
   ],
   "note": "Proved: images and labels of all batches are those without loss sampling and the weights are dropped in blocks by the draws (C86_batches, for tensor stream datasets C86_tensor_stream). For every described network, averaged over all sequences of draws, the reported loss is the one without loss sampling (C86_reported_loss), by linearity of the error in the weights; the accumulated gradient of every parameter is the share of kept blocks times the one without, by C85 and uniqueness of derivatives, and the data term of the step is this share times the probability times the one without (C86_step_partial). False in the code, hence partial: the trainer multiplies the averaged gradient by the probability where dividing would keep the average, so that with probability p the data term of the step is p squared times the one without loss sampling, a quarter for the tool's 0.5, while regularisation stays (C86_step_shrinks). Draws are values of a finite list, all sequences equally likely; shuffling is independent of them; real arithmetic."
  },
  {
   "property": "C87",
   "status": "partial",
   "theorems": [
    "CN24.WeightInit.C87_fan",
    "CN24.WeightInit.C87_initial_weights",
    "CN24.WeightInit.C87_bounds",
    "CN24.WeightInit.C87_chain",
    "CN24.WeightInit.C87_kernel_inputs_partial",
    "CN24.WeightInit.C87_regions",
    "CN24.WeightInit.C87_groups_ignored",
    "CN24.WeightInit.C87_reset_partial",
    "CN24.WeightInit.C87_reset_keeps_bias"
   ],
   "note": "Proved: in every network without cycles the number of inputs behind each layer is determined by its structure alone (C87_fan); after Initialize and InitializeWeights of a network as wired by the user, each weight of a convolution layer is the next number of its engine scaled to the range computed from these numbers in the user's network, accumulation nodes inserted by the library notwithstanding, and nothing else changes (C87_initial_weights); with exact arithmetic the range is the square root of 6 over the sum (C87_bounds); for described chains only the next convolution layer and the pooling in between count (C87_chain); pooling and down-sampling divide by the number of input pixels for each output pixel (C87_regions); without groups the number used is that of the weights of a kernel (C87_kernel_inputs_partial); initialising again gives weights that depend on nothing trained (C87_reset_partial). False in the code, hence partial: with groups the range is computed from all input maps although a kernel only has those of its group (C87_groups_ignored); the tool's reset leaves trained biases in place (C87_reset_keeps_bias). The sizes must stay below 2^32; the engine and the square root are parameters."
  },
  {
   "property": "C88",
   "status": "partial",
   "theorems": [
    "CN24.Rates.C88_test",
    "CN24.Rates.C88_hybrid_test",
    "CN24.Rates.C88_training",
    "CN24.Rates.C88_no_snapshots",
    "CN24.Rates.C88_recognition",
    "CN24.Rates.C88_hybrid_recognition",
    "CN24.Rates.C88_perfect_partial",
    "CN24.Rates.C88_absent_class"
   ],
   "note": "Proved after every session, for every counting layer whose reset leads back to a fresh state and whose statistics are its own (both layers of the library are such: confusion_lawful, binary_lawful): a test gives one row with the numbers of the batches of this test counted from fresh (C88_test, and C88_hybrid_test for the second network, where the other layer's numbers are null); n epochs with snapshots give n rows, each counted from fresh over the images of its epoch (C88_training); without snapshots one row counted over the epochs of the command, with the latest number of each rate (C88_no_snapshots). For the confusion matrix layer the numbers are the rates of the pixels shown, null if their weights add up to less than one (C88_recognition, C88_hybrid_recognition). Without errors both recognition rates are 100 (C88_perfect_partial). False in the code, hence partial: the average intersection over union counts classes that do not occur as 0, so a test without errors is reported with 50 percent if one of two classes occurs (C88_absent_class). One counting layer for each network; numbers are an ordered field."
  },
  {
   "property": "C89",
   "status": "proved",
   "theorems": [
    "CN24.TestSet.C89_whole_test_set",
    "CN24.TestSet.C89_hybrid_test_set",
    "CN24.TestSet.C89_determined"
   ],
   "note": "Proved end to end through the input layer, the dataset, the confusion matrix layer, the trainer, the statistics and the commands of the tool: C89_whole_test_set (one network) and C89_hybrid_test_set (second network for testing); the numbers are determined by the testing set and the function the network computes, so rows of runs with other batch sizes or histories agree (C89_determined). Assumed: pairs fit the announced sizes (C29 for what happens otherwise), the number of batches is below 2^24 (C28_large_test_set otherwise), scores are not below the smallest float, weights are not negative, numbers are an ordered field, and the network treats each image of a batch alone (proved for described networks in C91) and gives scores of the size of the padded image."
  },
  {
   "property": "C90",
   "status": "partial",
   "theorems": [
    "CN24.Progress.C90_training",
    "CN24.Progress.C90_no_snapshots",
    "CN24.Progress.C90_test",
    "CN24.Progress.C90_counts",
    "CN24.Progress.C90_hundred_partial",
    "CN24.Progress.C90_later_rows",
    "CN24.Progress.C90_frames_exceed",
    "CN24.Progress.C90_first_row_short",
    "CN24.Progress.C90_test_too_fast"
   ],
   "note": "Proved: the rows of a training command with snapshots (C90_training) and without (C90_no_snapshots) and the row of a test (C90_test) after any session; what a step counts, with the step that is taken in each case (C90_counts). Partial: the percentages add up to 100 except for the first weight of the first step after the construction or a reset of the trainer, for which nothing is counted (C90_hundred_partial, C90_later_rows; exhibited: C90_first_row_short), and a test counts whole batches, always more images than the testing set has (C90_frames_exceed, exhibited: C90_test_too_fast). Speeds are stated for elapsed times other than zero; numbers are those of a field, counters unbounded."
  },
  {
   "property": "C91",
   "status": "partial",
   "theorems": [
    "CN24.NetBatch.C91_batch_partial",
    "CN24.NetBatch.C91_reads",
    "CN24.NetBatch.C91_described_partial",
    "CN24.NetBatch.C91_test_set_partial",
    "CN24.NetBatch.C91_batch_size_partial",
    "CN24.NetBatch.C91_stale_normalisation"
   ],
   "note": "Proved for all networks of layers that the factory can make: all tensors of all layers and the output agree (C91_batch_partial); a described network reads images and helper images only, never labels or weights (C91_reads), so that its output for a picture is determined by these two (C91_described_partial); the rates of a test are those of the images evaluated alone (C91_test_set_partial, without C89's assumption about the network), and equal for any two sizes of batches and any two sessions leading to the same parameters (C91_batch_size_partial). Partial: normalisation layers must get square images (for wider ones the output depends on the memory, exhibited: C91_stale_normalisation; higher ones overrun, C46), joins must get images of the same size (C41), strided pooling windows must fit (C36), and there is no dropout outside of testing mode. Numbers are those of an ordered field; the test set theorems need a network without spatial prior."
  },
  {
   "property": "C92",
   "status": "partial",
   "theorems": [
    "CN24.NetSplit.C92_values_partial",
    "CN24.NetSplit.C92_gradient_partial",
    "CN24.NetSplit.C92_parameters",
    "CN24.NetSplit.C92_training_partial",
    "CN24.NetSplit.C92_reported_loss_partial",
    "CN24.Props.C92_splits",
    "CN24.NetSplit.C92_batches",
    "CN24.NetSplit.C92_sessions_partial"
   ],
   "note": "Proved: what a described network computes for a part is the part of what it computes for the batch, and the errors add up (C92_values_partial); the gradients that the two passes leave add up, whatever the buffers held before (C92_gradient_partial); the trainer therefore reaches the same state, weights and momentum, after any number of iterations, with both methods (C92_training_partial), where every number the trainer accumulates is the gradient at the place of that very weight (C92_parameters), and reports the same loss (C92_reported_loss_partial); input layers with the same seed deliver batches and their parts (C92_splits, C92_batches); all of it together, from the dataset to the weights (C92_sessions_partial). Partial: numbers are reals, so that differences of rounding (sums in another order) are not seen; no dropout; square images for normalisation (C46), joins of images of equal size (C41) and strided pooling windows that fit (C36); all layers must be differentiable wherever training comes along, as in C85; datasets are tensor streams."
  },
  {
   "property": "C93",
   "status": "partial",
   "theorems": [
    "CN24.Counting.C93_counters",
    "CN24.Counting.C93_bounded",
    "CN24.Counting.C93_exact_partial",
    "CN24.Counting.C93_fifty",
    "CN24.Counting.C93_wrong_rates"
   ],
   "note": "The property does not hold in general: every counter contains the number of its pixels, or 2^24 if there are more (C93_counters); none ever exceeds 2^24 if the weights are between zero and one (C93_bounded); once there are 2^24 pixels of each kind, every rate reported is 50 % whatever the network does (C93_fifty); there is a session of 5*2^24 pixels whose precision is 66 2/3 % and reported as 50 % (C93_wrong_rates). Proved: while no counter has more than 2^24 pixels to count, the counters and the rates computed from them are those of exact arithmetic, to which C44 applies (C93_exact_partial). Partial for this reason; the divisions that compute the rates from the counters are exact here; arithmetic is IEEE single precision with rounding to nearest (no extended precision registers)."
  },
  {
   "property": "C94",
   "status": "partial",
   "theorems": [
    "CN24.Rounding.C94_forward",
    "CN24.Rounding.C94_no_overflow",
    "CN24.Rounding.C94_overflow",
    "CN24.Rounding.C94_convolution",
    "CN24.Rounding.C94_rectifier",
    "CN24.Rounding.C94_max_pooling",
    "CN24.Rounding.C94_strided_pooling"
   ],
   "note": "The forward pass of a connected convolution layer with rounded arithmetic meets the bound (C94_forward); errors of the input are multiplied by at most the sum of absolute values of the weights (C94_convolution); rectifiers (C94_rectifier), max pooling (C94_max_pooling) and max pooling with strides (C94_strided_pooling) add none. With overflow to infinity and NaN as separate outcomes, no operation of the convolution overflows if what is added for one output has absolute values with a sum of at most 2^126, and all outputs are finite with the same bound (C94_no_overflow); single products can overflow (C94_overflow). Partial: C94_convolution states the bound for numbers without a largest exponent, only C94_no_overflow has overflow; dropout fraction zero; the host code without BLAS and without OpenCL, compiled without contraction of products and sums. C98 combines the layers to a network."
  },
  {
   "property": "C95",
   "status": "partial",
   "theorems": [
    "CN24.GraphFile.C95_graph_file",
    "CN24.GraphFile.C95_names_partial",
    "CN24.GraphFile.C95_name_clash",
    "CN24.GraphFile.C95_ports",
    "CN24.GraphFile.C95_before_initialize",
    "CN24.GraphFile.C95_sizes"
   ],
   "note": "For every initialised network the file is read, by a reader of the DOT language that knows nothing about the printing, as exactly these boxes and arrows (C95_graph_file), every arrow starting and ending at a field that its box has (C95_ports); the field of an output shows samples, width, height and maps of its tensor (C95_sizes). Names given by the graph differ and are valid names for Graphviz, and statistics are reported for the layer asked for only, if the names given by the user differ and do not look like those of the graph (C95_names_partial). False in the code, hence partial: a node that the user calls node0 can share its name with another one, which is then reported too (C95_name_clash). Before Initialize the command reads through a null pointer (C95_before_initialize). Not covered: texts of descriptions with quotation marks, backslashes, braces, bars or angle brackets (no layer has them)."
  },
  {
   "property": "C96",
   "status": "partial",
   "theorems": [
    "CN24.MatrixReport.C96_report",
    "CN24.MatrixReport.C96_missing_name",
    "CN24.MatrixReport.C96_names_partial",
    "CN24.MatrixReport.C96_name_clash",
    "CN24.MatrixReport.C96_wide_count"
   ],
   "note": "For total weights below 10^12 and names without line feeds and leading blanks, an independent reader of the text (lines, columns of twelve characters, decimal numbers) gets the rounded-down weights, rates and names (C96_report). A class without a name is undefined behaviour (C96_missing_name; the datasets of the library refuse this). Partial: names longer than eleven characters are cut and can coincide (C96_names_partial, C96_name_clash); counts from 10^12 on move the columns (C96_wide_count). The text of a percentage is a parameter (one word without percent sign); long double is an ordered field."
  },
  {
   "property": "C97",
   "status": "partial",
   "theorems": [
    "CN24.Startup.C97_directory",
    "CN24.Startup.C97_settings_partial",
    "CN24.Startup.C97_defaults",
    "CN24.Startup.C97_device_partial",
    "CN24.Startup.C97_missing_device_undefined",
    "CN24.Startup.C97_longer_word",
    "CN24.Startup.C97_bare_word",
    "CN24.Startup.C97_kernels",
    "CN24.Startup.C97_unknown_place"
   ],
   "note": "The directory of the program (C97_directory), the numbers read from the file (C97_settings_partial, C97_defaults), the device (C97_device_partial) and the kernel files (C97_kernels, C97_unknown_place) for all files and machines. Partial: a number that no platform or device has is used as an index without a check, exactly then the outcome is undefined (C97_missing_device_undefined); a line that only begins with the word of a setting changes the setting too (C97_longer_word), and a bare word ends the program with an exception (C97_bare_word). The theorems on settings are for lines that do not do so and numbers up to 2^31-1. Linux only; the answers of the OpenCL library are parameters."
  },
  {
   "property": "C98",
   "status": "partial",
   "theorems": [
    "CN24.RoundingNet.C98_chain",
    "CN24.RoundingNet.C98_network_partial",
    "CN24.RoundingNet.C98_decision",
    "CN24.RoundingNet.C98_network_decision_partial",
    "CN24.RoundingNet.C98_accurate"
   ],
   "note": "Chains of layers of any length (C98_chain), the networks of configuration texts (C98_network_partial) the computed class (C98_decision, C98_network_decision_partial) and the smooth activations (C98_accurate); the same model of the network is run with rounded and with exact numbers. Down-sampling is included, with the rounding of its sums and of its factor. Partial: descriptions with normalisation or spatial prior layers and with dropout are left out; C98_accurate derives the accuracy of the computed sigmoid and hyperbolic tangent from the relative error of exp in single precision, which is a hypothesis, since the accuracy of the C library is not specified; numbers have no largest exponent (C94_no_overflow covers overflow of one convolution); host code without BLAS and without OpenCL."
  },
  {
   "property": "C99",
   "status": "partial",
   "theorems": [
    "CN24.Input.C99_sees_current_partial",
    "CN24.Input.C99_samples",
    "CN24.Input.C99_sizes_unchecked",
    "CN24.Input.C99_one_tensor_unset",
    "CN24.Input.C99_resize_undefined",
    "CN24.Input.C99_dataset_node",
    "CN24.Input.C99_dataset_connect",
    "CN24.Input.C99_simple_connect",
    "CN24.Input.C99_connect",
    "CN24.Input.C99_node",
    "CN24.Input.C99_inputs_refused",
    "CN24.Input.C99_missing_input_undefined"
   ],
   "note": "Proved for all histories of writes and reshapes (C99_sees_current_partial), the check of the number of samples (C99_samples), when a node is set up and an input layer connected (C99_node, C99_connect), the buffers of the dataset layer (C99_dataset_node) and the connection of layers with one input (C99_simple_connect) and of input layers with inputs (C99_inputs_refused). The code breaks the rest: resizing a tensor to another size leaves the network with released memory (C99_resize_undefined); the layer made from one tensor has label, helper and weight buffers that are never written (C99_one_tensor_unset); other dimensions are not compared (C99_sizes_unchecked); connecting the dataset layer to too few buffers is undefined and a null helper buffer is accepted (C99_dataset_connect); a layer without its input is undefined instead of an error (C99_missing_input_undefined). Host code; the copy on an OpenCL device is C81."
  },
  {
   "property": "C100",
   "status": "proved",
   "theorems": [
    "CN24.KittiFiles.C100_read",
    "CN24.KittiFiles.C100_distinct",
    "CN24.KittiFiles.C100_negative"
   ],
   "note": "C100_read: the path returned is read, by an independent reader of the archive's layout, as the requested role, category and number. C100_distinct: different requests (any integers) yield different paths. C100_negative: a path made for a negative number is no name of the archive. Values outside the enumeration of categories are not modelled."
  },
  {
   "property": "C101",
   "status": "proved",
   "theorems": [
    "CN24.Console.C101_report",
    "CN24.Console.C101_reports",
    "CN24.Console.C101_collector",
    "CN24.Console.C101_too_few"
   ],
   "note": "C101_report: one call of Process adds one report that is read back completely. C101_reports: all sequences of sink calls, all log levels. C101_collector: together with the model of the collector, from recorded values to the console. C101_too_few: undefined behaviour if there are fewer statistics than descriptors. The formatting of a double is a parameter (any text without blanks and line feeds); the texts __PRETTY_FUNCTION__ yields are parameters."
  },
  {
   "property": "C102",
   "status": "partial",
   "theorems": [
    "CN24.HMaxStats.C102_refines",
    "CN24.HMaxStats.C102_reported_partial",
    "CN24.HMaxStats.C102_text_silent",
    "CN24.HMaxStats.C102_destroyed_undefined"
   ],
   "note": "C102_refines: for histories without destruction, layers are exactly two registrations and pairs of updates. C102_reported_partial: the report shows the sums of what the specification has heard divided by the iterations, provided a layer built from numbers (network configuration) exists before Initialize, no layer is destroyed and users do not update the two statistics themselves. False in the code, hence partial: if all layers are built from configuration text, nothing is ever reported (C102_text_silent); the descriptors live in the first layer, so after its destruction any report is undefined, for good (C102_destroyed_undefined). Fewer than 2^31 statistics; double is a field."
  },
  {
   "property": "C103",
   "status": "partial",
   "theorems": [
    "CN24.Benchmark.C103_throughput_partial",
    "CN24.Benchmark.C103_overstated",
    "CN24.Benchmark.C103_built_in",
    "CN24.Benchmark.C103_network"
   ],
   "note": "C103_throughput_partial: the two reports are exactly the images seen by an observer with a stopwatch, divided by the time, for descriptions that leave pbatchsize at its default. False in the code, hence partial: the image is made before the settings are read, so it has one sample while pbatchsize images are counted, and every report is pbatchsize times the truth (C103_overstated), twice for both built-in networks (C103_built_in). C103_network: the choice of the network; file names that begin with --ci are not opened. double is a field (a measured time of zero is outside); the gradient check at the end is C48."
  },
  {
   "property": "C104",
   "status": "partial",
   "theorems": [
    "CN24.Viewer.C104_picture_partial",
    "CN24.Viewer.C104_negative_undefined",
    "CN24.Viewer.C104_missing_sample_undefined",
    "CN24.Viewer.C104_layer_view_partial"
   ],
   "note": "C104_picture_partial: all pixels, accuracy and untouched bytes, if no value shown is negative and none of a colour image above one. C104_layer_view_partial: the layer view of non-negative outputs. False in the code, hence partial: a value of -1/254 or less is undefined behaviour instead of red (C104_negative_undefined; so every layer view of a tanh output is in danger), and a sample that does not exist is read outside the tensor (C104_missing_sample_undefined). Single precision with rounding; the window itself is not modelled; factor is 1, as in the only call."
  },
  {
   "property": "C105",
   "status": "partial",
   "theorems": [
    "CN24.Props.C105_shown_partial",
    "CN24.Props.C105_distinct",
    "CN24.Props.C105_iterations_hidden"
   ],
   "note": "C105_shown_partial: an independent reader gets the settings of the description from the printed line. C105_distinct: equal lines mean equal settings, as far as printed. False in the code, hence partial: the number of iterations is not in the line (C105_iterations_hidden). The formatting of a datum is a parameter; the log prefix of the line is not modelled."
  },
  {
   "property": "C106",
   "status": "partial",
   "theorems": [
    "CN24.StepRounding.C106_no_overflow",
    "CN24.StepRounding.C106_overflow",
    "CN24.StepRounding.C106_iteration_partial",
    "CN24.StepRounding.C106_rule",
    "CN24.StepRounding.C106_step_partial",
    "CN24.StepRounding.C106_moves",
    "CN24.StepRounding.C106_frozen",
    "CN24.StepRounding.C106_lost"
   ],
   "note": "C106_rule: the update of the trainer model (C25) is the rule modelled here. C106_step_partial: new weight and kept step are within 2^-21 of the sizes of the terms (plus 2^-146 for denormal numbers) of the textbook rule; C106_iteration_partial: the same for whole iterations, from the gradients of their passes. C106_moves: steps of at least 2^-23 of the weight move it to the right side. False in general, hence partial: steps that are 2^26 times smaller than the weight are lost in every iteration, for every sequence of learning rates and gradients and with momentum (C106_frozen); a weight that the rule leads away without bound stays at one forever (C106_lost). C106_no_overflow: with overflow modelled, nothing overflows if gradient, weight and last step are below 2^60 and the settings below 2^20; C106_overflow: it can otherwise. Fused multiplication and addition are not modelled."
  },
  {
   "property": "C107",
   "status": "partial",
   "theorems": [
    "CN24.LossLine.C107_epoch_partial",
    "CN24.LossLine.C107_too_large",
    "CN24.LossLine.C107_overstated",
    "CN24.LossLine.C107_test_partial",
    "CN24.LossLine.C107_epoch_rounded_partial",
    "CN24.LossLine.C107_not_counted"
   ],
   "note": "C107_test_partial: with less than 2^32 pixels and at most 2^22 passes the number printed after a test in single precision differs from the mean by at most (passes + 2) / 2^23 of it (plus half of the smallest number). C107_epoch_partial: the line after an epoch in exact arithmetic. C107_epoch_rounded_partial: the same in single precision, within (passes + 4) / 2^23 of the mean. False in the code, hence partial: the number of pixels is a 32-bit product; from 2^32 pixels on the number printed is always too large or infinite (C107_too_large; 4097 batches of 1024 x 1024 pixels: 4097 times, C107_overstated); losses that are 2^26 times smaller than the sum so far are not counted, however many there are (C107_not_counted). The rest of the line and the formatting of the number are not modelled; the loss recorded as a statistic is that of C72_test_loss."
  },
  {
   "property": "C108",
   "status": "partial",
   "theorems": [
    "CN24.QuickRounding.C108_exact",
    "CN24.QuickRounding.C108_rule",
    "CN24.QuickRounding.C108_step",
    "CN24.QuickRounding.C108_downhill_partial",
    "CN24.QuickRounding.C108_limited",
    "CN24.QuickRounding.C108_no_division_by_zero",
    "CN24.QuickRounding.C108_uphill"
   ],
   "note": "C108_rule: over exact numbers the step is the one of the trainer model (C26). C108_step, C108_downhill_partial: step times slope is never positive, by induction over the history, with rounded arithmetic. C108_exact: the same for the trainer model with exact numbers and every mu above one. C108_limited: the bound on the size of a step. C108_no_division_by_zero: the difference of slopes is not zero where it divides. False in general, hence partial: with mu of one half a step can lead uphill (C108_uphill); mu between 1 and 1 + 2^-20 is left out. Numbers have no largest exponent; fused multiplication and addition are not modelled; the slope is given (its rounding is part of C106_step_partial)."
  }
 ]
}
