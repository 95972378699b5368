{
 "claims": [
  {
   "property": "C01",
   "status": "partial",
   "theorems": [
    "TinyDIP.Props.C01_ofSizes_partial",
    "TinyDIP.Props.C01_ofData_partial",
    "TinyDIP.Props.C01_ofDataRvalue_partial",
    "TinyDIP.Props.C01_ofRows_partial",
    "TinyDIP.Props.C01_overflow_violation",
    "TinyDIP.Props.C01_ragged_violation",
    "TinyDIP.Props.C01_default_violation"
   ],
   "note": "Proved whenever the product of the sizes fits in size_t (and rows are rectangular, data non-empty). Missing: without that hypothesis the code violates the property; the violation theorems give concrete witnesses (wrapped product, ragged rows, default image)."
  },
  {
   "property": "C02",
   "status": "proved",
   "theorems": [
    "TinyDIP.Props.C02_addressing",
    "TinyDIP.Props.C02_first_coordinate_fastest"
   ],
   "note": ""
  },
  {
   "property": "C03",
   "status": "proved",
   "theorems": [
    "TinyDIP.Props.C03_write_frame",
    "TinyDIP.Props.C03_unchecked_agrees",
    "TinyDIP.Props.C03_writes_commute"
   ],
   "note": ""
  },
  {
   "property": "C04",
   "status": "partial",
   "theorems": [
    "TinyDIP.Props.C04_at_safe",
    "TinyDIP.Props.C04_setTuple_safe",
    "TinyDIP.Props.C04_setIndex_safe",
    "TinyDIP.Props.C04_atRange_partial",
    "TinyDIP.Props.C04_atRange_violation"
   ],
   "note": "Checked 2-D/tuple/linear access proved outright. at() with a vector of indices does not check for a short vector (violation theorem with witness); proved when it has the right length."
  },
  {
   "property": "C05",
   "status": "proved",
   "theorems": [
    "TinyDIP.Props.C05_linear_index",
    "TinyDIP.Props.C05_linear_index_strides",
    "TinyDIP.Props.C05_round_trip"
   ],
   "note": ""
  },
  {
   "property": "C06",
   "status": "partial",
   "theorems": [
    "TinyDIP.Props.C06_pixel_iteration",
    "TinyDIP.Props.C06_each_once",
    "TinyDIP.Props.C06_not_2d",
    "TinyDIP.Props.C06_zero_width_violation"
   ],
   "note": "Proved for every image whose pixel iteration is used with non-zero first dimension; C06_zero_width_violation is the witness for the empty-width case."
  },
  {
   "property": "C07",
   "status": "proved",
   "theorems": [
    "TinyDIP.Props.C07_opAssign",
    "TinyDIP.Props.C07_add_sub_restores",
    "TinyDIP.Props.C07_add_comm"
   ],
   "note": ""
  },
  {
   "property": "C08",
   "status": "partial",
   "theorems": [
    "TinyDIP.Props.C08_add_partial",
    "TinyDIP.Props.C08_order",
    "TinyDIP.Props.C08_smaller_violation",
    "TinyDIP.Props.C08_shape_violation"
   ],
   "note": "Sum and independence of the argument order proved for images of one shape (at least one pixel). Missing: rejection of differing shapes; the code accepts them or reads out of range (witnesses)."
  },
  {
   "property": "C09",
   "status": "partial",
   "theorems": [
    "TinyDIP.Props.C09_transform_partial",
    "TinyDIP.Props.C09_compose",
    "TinyDIP.Props.C09_identity",
    "TinyDIP.Props.C09_transform2_partial",
    "TinyDIP.Props.C09_multiplies_scalar",
    "TinyDIP.Props.C09_empty_violation"
   ],
   "note": "Proved for every image with at least one pixel; the composition law for every image. Missing: images without pixels, on which the constructor throws (witness)."
  },
  {
   "property": "C10",
   "status": "proved",
   "theorems": [
    "TinyDIP.Props.C10_subtract_saturates",
    "TinyDIP.Props.C10_no_wrap"
   ],
   "note": ""
  },
  {
   "property": "C11",
   "status": "proved",
   "theorems": [
    "TinyDIP.Props.C11_constant_padding",
    "TinyDIP.Props.C11_add_border",
    "TinyDIP.Props.C11_not_2d"
   ],
   "note": ""
  },
  {
   "property": "C12",
   "status": "proved",
   "theorems": [
    "TinyDIP.Props.C12_mirror_padding",
    "TinyDIP.Props.C12_too_large",
    "TinyDIP.Props.C12_reflect_is_reflection"
   ],
   "note": ""
  },
  {
   "property": "C13",
   "status": "proved",
   "theorems": [
    "TinyDIP.Props.C13_replicate_padding",
    "TinyDIP.Props.C13_clamp_is_clamp"
   ],
   "note": ""
  },
  {
   "property": "C14",
   "status": "partial",
   "theorems": [
    "TinyDIP.Props.C14_subimage2_partial",
    "TinyDIP.Props.C14_column_violation",
    "TinyDIP.Props.C14_row_violation"
   ],
   "note": "Contained rectangles and corners strictly beyond the size are proved. Missing: a corner equal to width/height must throw; the code accepts it (two violation witnesses)."
  },
  {
   "property": "C15",
   "status": "proved",
   "theorems": [
    "TinyDIP.Props.C15_subimage",
    "TinyDIP.Props.C15_subimage2d",
    "TinyDIP.Props.C15_rejects"
   ],
   "note": ""
  },
  {
   "property": "C16",
   "status": "proved",
   "theorems": [
    "TinyDIP.Props.C16_split",
    "TinyDIP.Props.C16_round_trip",
    "TinyDIP.Props.C16_degenerate"
   ],
   "note": ""
  },
  {
   "property": "C17",
   "status": "partial",
   "theorems": [
    "TinyDIP.Props.C17_split_overlap_partial",
    "TinyDIP.Props.C17_no_overlap_odd_partial",
    "TinyDIP.Props.C17_even_violation",
    "TinyDIP.Props.C17_overlap_violation"
   ],
   "note": "The window actually returned is proved for every overlap and block size; it equals the specified block exactly without overlap and for odd block sizes. Missing: the specified window; violated otherwise (witnesses)."
  },
  {
   "property": "C18",
   "status": "proved",
   "theorems": [
    "TinyDIP.Props.C18_concat_horizontal",
    "TinyDIP.Props.C18_concat_vertical",
    "TinyDIP.Props.C18_mismatch"
   ],
   "note": ""
  },
  {
   "property": "C19",
   "status": "partial",
   "theorems": [
    "TinyDIP.Props.C19_paste_partial",
    "TinyDIP.Props.C19_not_2d",
    "TinyDIP.Props.C19_overflow_violation"
   ],
   "note": "Proved whenever location + target size does not overflow size_t. Missing: overflowing locations, where the code writes out of bounds (witness)."
  },
  {
   "property": "C20",
   "status": "proved",
   "theorems": [
    "TinyDIP.Props.C20_pixels",
    "TinyDIP.Props.C20_involutions",
    "TinyDIP.Props.C20_flips_compose",
    "TinyDIP.Props.C20_quarter_turn"
   ],
   "note": ""
  },
  {
   "property": "C21",
   "status": "partial",
   "theorems": [
    "TinyDIP.Props.C21_quarter_turns_dropped",
    "TinyDIP.Props.C21_rotate_partial",
    "TinyDIP.Props.C21_rotate_violation",
    "TinyDIP.Props.C21_size_kept",
    "TinyDIP.Props.C21_detail"
   ],
   "note": "Exact reals, pi exact. The code reduces the angle modulo pi/2 before turning, so only full turns are right (violation with witness; C21_size_kept for every angle)."
  },
  {
   "property": "C22",
   "status": "partial",
   "theorems": [
    "TinyDIP.Props.C22_windowed_filter_partial",
    "TinyDIP.Props.C22_windowed_filter_centre_partial",
    "TinyDIP.Props.C22_windowed_filter_causal_partial",
    "TinyDIP.Props.C22_windowed_filter_violation"
   ],
   "note": "Proved whenever no pixel is filtered before another one whose filter looks at it; in particular centre-only filters in every order and causal filters sequentially. Missing: the general case, which is false because windows are read from the image being written (witness)."
  },
  {
   "property": "C23",
   "status": "proved",
   "theorems": [
    "TinyDIP.Props.C23_conv2_full",
    "TinyDIP.Props.C23_conv2_sequential",
    "TinyDIP.Props.C23_conv2_commutative",
    "TinyDIP.Props.C23_conv2_linear",
    "TinyDIP.Props.C23_conv2_same"
   ],
   "note": "Elements from any commutative ring."
  },
  {
   "property": "C24",
   "status": "partial",
   "theorems": [
    "TinyDIP.Props.C24_convolution_full_partial",
    "TinyDIP.Props.C24_same_size_ignores_kernel_violation",
    "TinyDIP.Props.C24_same_size_witness_violation"
   ],
   "note": "Full N-dimensional convolution proved. The is_size_same branch returns the input image for every kernel (proved as violation, with witness)."
  },
  {
   "property": "C25",
   "status": "proved",
   "theorems": [
    "TinyDIP.Props.C25_dft2_is_fourier",
    "TinyDIP.Props.C25_idft2_is_inverse_fourier",
    "TinyDIP.Props.C25_idft2_dft2"
   ],
   "note": "Exact real and complex arithmetic; x*m and y*n must fit in size_t."
  },
  {
   "property": "C26",
   "status": "proved",
   "theorems": [
    "TinyDIP.Props.C26_dct3_plane_is_cosine",
    "TinyDIP.Props.C26_idct3_plane_is_expansion",
    "TinyDIP.Props.C26_idct3_dct3",
    "TinyDIP.Props.C26_dct3_idct3",
    "TinyDIP.Props.C26_idct2_dct2",
    "TinyDIP.Props.C26_dct2_idct2"
   ],
   "note": "Exact real arithmetic. idct3's call of idct3_one_plane cannot be instantiated as written; the intended call is modelled."
  },
  {
   "property": "C27",
   "status": "proved",
   "theorems": [
    "TinyDIP.Props.C27_geometry_schedules",
    "TinyDIP.Props.C27_subimage2_schedules",
    "TinyDIP.Props.C27_resize_schedules",
    "TinyDIP.Props.C27_pixelwise_schedules",
    "TinyDIP.Props.C27_planes_schedules",
    "TinyDIP.Props.C27_construct_schedules",
    "TinyDIP.Props.C27_replace_schedules"
   ],
   "note": "Proved per operation: each theorem quantifies over every order of the per-pixel bodies."
  },
  {
   "property": "C28",
   "status": "proved",
   "theorems": [
    "TinyDIP.C28_product",
    "TinyDIP.C28_throws",
    "TinyDIP.C28_transpose",
    "TinyDIP.C28_transpose_involution",
    "TinyDIP.C28_assoc",
    "TinyDIP.C28_transpose_mul"
   ],
   "note": ""
  },
  {
   "property": "C29",
   "status": "proved",
   "theorems": [
    "TinyDIP.C29_throws",
    "TinyDIP.C29_inverse",
    "TinyDIP.C29_determinant"
   ],
   "note": ""
  },
  {
   "property": "C30",
   "status": "proved",
   "theorems": [
    "TinyDIP.C30_solver",
    "TinyDIP.C30_singular"
   ],
   "note": ""
  },
  {
   "property": "C31",
   "status": "proved",
   "theorems": [
    "TinyDIP.C31_square",
    "TinyDIP.C31_nonsquare",
    "TinyDIP.C31_tolerance",
    "TinyDIP.C31_image",
    "TinyDIP.C31_image_throws"
   ],
   "note": ""
  },
  {
   "property": "C32",
   "status": "proved",
   "theorems": [
    "TinyDIP.Props.C32_dense",
    "TinyDIP.Props.C32_sparse",
    "TinyDIP.Props.C32_forms_agree",
    "TinyDIP.Props.C32_normalize_dense",
    "TinyDIP.Props.C32_normalize_sparse",
    "TinyDIP.Props.C32_histogram_normalized",
    "TinyDIP.Props.C32_normalize_array"
   ],
   "note": "Proved for both storage forms, every allowed std::reduce order, with size_t arithmetic mod 2^64; normalised values in exact arithmetic."
  },
  {
   "property": "C33",
   "status": "partial",
   "theorems": [
    "TinyDIP.Props.C33_partial",
    "TinyDIP.Props.C33_violation",
    "TinyDIP.Props.C33_negative_violation"
   ],
   "note": "Proved when the range starts at zero. Missing: other ranges, for which the code divides the value instead of its distance from the lowest value (violations: access past the last bin, negative index, wrong bin)."
  },
  {
   "property": "C34",
   "status": "partial",
   "theorems": [
    "TinyDIP.Props.C34_bmp_round_trip_partial",
    "TinyDIP.Props.C34_bmp_violation",
    "TinyDIP.Props.C34_bmp_unwritable",
    "TinyDIP.Props.C34_bmp_missing"
   ],
   "note": "Proved for all images with less than 2^31 bytes of pixel data; larger images are written but reading them back is undefined behaviour (violation theorem)."
  },
  {
   "property": "C35",
   "status": "proved",
   "theorems": [
    "TinyDIP.Props.C35_bmp_layout"
   ],
   "note": ""
  },
  {
   "property": "C36",
   "status": "partial",
   "theorems": [
    "TinyDIP.Props.C36_bmp8_partial",
    "TinyDIP.Props.C36_bmp8_topdown_partial",
    "TinyDIP.Props.C36_bmp8_violation"
   ],
   "note": "Bottom-up and top-down files with less than 2^31 decoded bytes and indices inside the stored palette; a complete 32768 x 32768 file is undefined behaviour (violation theorem)."
  },
  {
   "property": "C37",
   "status": "partial",
   "theorems": [
    "TinyDIP.Props.C37_double_round_trip_partial",
    "TinyDIP.Props.C37_hsv_round_trip_partial",
    "TinyDIP.Props.C37_double_violation",
    "TinyDIP.Props.C37_hsv_violation"
   ],
   "note": "Bit patterns restored for any malloc content below 2^31 stored samples; larger images violate it (int overflow in the reader)."
  },
  {
   "property": "C38",
   "status": "proved",
   "theorems": [
    "TinyDIP.Props.C38_ppm_round_trip",
    "TinyDIP.Props.C38_pgm_round_trip",
    "TinyDIP.Props.C38_pbm_round_trip"
   ],
   "note": "P3 restores the image for all sizes with 3*w*h < 2^64 (bytes of the pixel buffer); P2 and P1 variants too; any order of the pixel loop."
  },
  {
   "property": "C39",
   "status": "partial",
   "theorems": [
    "TinyDIP.Props.C39_separators_partial",
    "TinyDIP.Props.C39_glued_comment_violation"
   ],
   "note": "All separators after white space; the violation shows a comment that follows a token directly."
  },
  {
   "property": "C40",
   "status": "partial",
   "theorems": [
    "TinyDIP.Props.C40_integers_partial",
    "TinyDIP.Props.C40_whole_doubles_partial",
    "TinyDIP.Props.C40_fixed_doubles_partial",
    "TinyDIP.Props.C40_double_violation",
    "TinyDIP.Props.C40_u8_violation",
    "TinyDIP.Props.C40_empty_violation",
    "TinyDIP.Props.C40_failures"
   ],
   "note": "Integer element types restored; doubles: whole values of six digits (default format) and fixed precision with error bound; violations for seven digits, bytes (written as characters) and empty images. Decimal text of non-whole doubles in the default format is not modelled."
  },
  {
   "property": "C41",
   "status": "proved",
   "theorems": [
    "TinyDIP.Props.C41_exact_on_grid",
    "TinyDIP.Props.C41_zero_outside",
    "TinyDIP.Props.C41_between_neighbours"
   ],
   "note": "Exact real arithmetic; element conversions axiomatised by Conv.Lawful, proved for real and 8-bit pixels. C152 treats the 8-bit case with rounding."
  },
  {
   "property": "C42",
   "status": "proved",
   "theorems": [
    "TinyDIP.Props.C42_kernel",
    "TinyDIP.Props.C42_exact_on_grid",
    "TinyDIP.Props.C42_constants",
    "TinyDIP.Props.C42_never_out_of_range"
   ],
   "note": "Exact real arithmetic; also proves that linear functions are reproduced by the kernel."
  },
  {
   "property": "C43",
   "status": "proved",
   "theorems": [
    "TinyDIP.Props.C43_resize",
    "TinyDIP.Props.C43_same_size",
    "TinyDIP.Props.C43_enlarge_shrink"
   ],
   "note": "Exact real arithmetic for the ratios; C151 treats rounding to double, where the position can be one too small."
  },
  {
   "property": "C44",
   "status": "proved",
   "theorems": [
    "TinyDIP.Props.C44_bisection",
    "TinyDIP.Props.C44_mapping_strictMono",
    "TinyDIP.Props.C44_root_finder"
   ],
   "note": "Exact real arithmetic; D0 > 0."
  },
  {
   "property": "C45",
   "status": "partial",
   "theorems": [
    "TinyDIP.Props.C45_partial",
    "TinyDIP.Props.C45_points_partial",
    "TinyDIP.Props.C45_only_disc_partial",
    "TinyDIP.Props.C45_violation"
   ],
   "note": "Proved in every order of the iterations when the point is at least the radius away from the left and top borders. Missing: points closer than that, for which the code draws nothing (violation proved for every image)."
  },
  {
   "property": "C46",
   "status": "proved",
   "theorems": [
    "TinyDIP.Props.C46_draw_line",
    "TinyDIP.Props.C46_endpoints",
    "TinyDIP.Props.C46_rejects"
   ],
   "note": "Coordinates below 2^61 (beyond that the code's long arithmetic overflows)."
  },
  {
   "property": "C47",
   "status": "proved",
   "theorems": [
    "TinyDIP.Props.C47_draw_circle",
    "TinyDIP.Props.C47_ring_symmetric",
    "TinyDIP.Props.C47_no_gaps",
    "TinyDIP.Props.C47_rejects"
   ],
   "note": "Radius below 2^31, image sides at most 2^63 (beyond that the code's signed arithmetic overflows)."
  },
  {
   "property": "C48",
   "status": "proved",
   "theorems": [
    "TinyDIP.Props.C48_extremum",
    "TinyDIP.Props.C48_rejected"
   ],
   "note": "Exact arithmetic; images of other sizes are rejected."
  },
  {
   "property": "C49",
   "status": "partial",
   "theorems": [
    "TinyDIP.Props.C49_refinement_partial",
    "TinyDIP.Props.C49_refinement_violation"
   ],
   "note": "Violation: the diagonal entries of the inverse Hessian are exchanged, so the offset is right exactly when the two second derivatives agree (or the gradient is zero). Exact arithmetic."
  },
  {
   "property": "C50",
   "status": "partial",
   "theorems": [
    "TinyDIP.Props.C50_search_partial",
    "TinyDIP.Props.C50_schedule",
    "TinyDIP.Props.C50_mapped_inside",
    "TinyDIP.Props.C50_missing_octave_violation",
    "TinyDIP.Props.C50_levels_violation",
    "TinyDIP.Props.C50_location_violation"
   ],
   "note": "Partial: every requested octave must exist and there must be at least three levels. Violations: missing octaves are read (100x100 with the default four octaves), fewer than three levels wrap around, refined locations outside the image are converted to size_t."
  },
  {
   "property": "C51",
   "status": "partial",
   "theorems": [
    "TinyDIP.Props.C51_raw_partial",
    "TinyDIP.Props.C51_overflow_violation"
   ],
   "note": "Proved when all distances are below the largest number; C51_overflow_violation: a larger distance with a ratio above 1 gives the match index size_t(-1)."
  },
  {
   "property": "C52",
   "status": "proved",
   "theorems": [
    "TinyDIP.Props.C52_robust",
    "TinyDIP.Props.C52_mutual"
   ],
   "note": "Proved for every distance, ratio and schedule."
  },
  {
   "property": "C53",
   "status": "proved",
   "theorems": [
    "TinyDIP.Stitch.C53_equations",
    "TinyDIP.Stitch.C53_scale",
    "TinyDIP.Stitch.C53_few",
    "TinyDIP.Stitch.C53_homography"
   ],
   "note": "Equations, scaling and the accuracy of the computed null vector (through C79)."
  },
  {
   "property": "C54",
   "status": "proved",
   "theorems": [
    "TinyDIP.Stitch.C54_robust",
    "TinyDIP.Stitch.C54_few",
    "TinyDIP.Stitch.C54_sample",
    "TinyDIP.Stitch.C54_ransac",
    "TinyDIP.Stitch.C54_msac",
    "TinyDIP.Stitch.C54_refine"
   ],
   "note": "Any solver, scoring function and sequence of draws; RANSAC and MSAC costs and the refinement."
  },
  {
   "property": "C55",
   "status": "partial",
   "theorems": [
    "TinyDIP.Stitch.C55_warp_partial",
    "TinyDIP.Stitch.C55_singular",
    "TinyDIP.Stitch.C55_warp_violation",
    "TinyDIP.Stitch.C55_stitch_partial",
    "TinyDIP.Stitch.C55_stitch_violation"
   ],
   "note": "warp_perspective with a policy uses the inverse of the given homography: C55_warp_violation; proved: it equals the plain warp of the inverse, and the same homography when it is its own inverse. Stitched images agree when the canvas is not moved; C55_stitch_violation otherwise."
  },
  {
   "property": "C56",
   "status": "partial",
   "theorems": [
    "TinyDIP.Stitch.C56_blend_partial",
    "TinyDIP.Stitch.C56_offset_violation",
    "TinyDIP.Stitch.C56_stitch_violation",
    "TinyDIP.Stitch.C56_dark_violation"
   ],
   "note": "Proved for canvases moved by less than one pixel; C56_offset_violation: undefined conversion when moved by one pixel or more; C56_dark_violation: pixels of image 2 with all samples at most 5 are dropped. Exact arithmetic for the weights; C152 treats rounding."
  },
  {
   "property": "C57",
   "status": "partial",
   "theorems": [
    "TinyDIP.Props.C57_manhattan",
    "TinyDIP.Props.C57_squared_partial",
    "TinyDIP.Props.C57_squared_policy",
    "TinyDIP.Props.C57_squared_u8_violation"
   ],
   "note": "Exact arithmetic over any ordered ring. manhattan proved outright for images with pixels; squared Euclidean distance proved in exact arithmetic. Missing: 8-bit elements, whose accumulator wraps (witness)."
  },
  {
   "property": "C58",
   "status": "proved",
   "theorems": [
    "TinyDIP.Props.C58_replace",
    "TinyDIP.Props.C58_replace_self",
    "TinyDIP.Props.C58_unique"
   ],
   "note": ""
  },
  {
   "property": "C59",
   "status": "proved",
   "theorems": [
    "TinyDIP.Props.C59_min_max",
    "TinyDIP.Props.C59_sum",
    "TinyDIP.Props.C59_sum_coordinates"
   ],
   "note": ""
  },
  {
   "property": "C60",
   "status": "proved",
   "theorems": [
    "TinyDIP.Props.C60_history",
    "TinyDIP.Props.C60_store",
    "TinyDIP.Props.C60_remove",
    "TinyDIP.Props.C60_typed"
   ],
   "note": ""
  },
  {
   "property": "C61",
   "status": "partial",
   "theorems": [
    "TinyDIP.Props.C61_partial",
    "TinyDIP.Props.C61_missing_partial",
    "TinyDIP.Props.C61_violation"
   ],
   "note": "Proved for renames to a different name and for missing names. Missing: renaming a variable to its own name must keep it; the code deletes it (violation witness)."
  },
  {
   "property": "C62",
   "status": "partial",
   "theorems": [
    "TinyDIP.Props.C62_parse",
    "TinyDIP.Props.C62_single_stage",
    "TinyDIP.Props.C62_typed",
    "TinyDIP.Props.C62_partial",
    "TinyDIP.Props.C62_final_partial",
    "TinyDIP.Props.C62_zeros_violation",
    "TinyDIP.Props.C62_policy_violation"
   ],
   "note": "Proved: any line typed with spaces and '|' parses to its stages (C62_parse); the wired command list is the chain of the stages, with the typed arguments kept in order, for schemas as registered; the result goes to the final variable. Missing: a policy word before the positional arguments, and schemas whose position exceeds the typed arguments (zeros); the code injects at the raw position (two violation witnesses)."
  },
  {
   "property": "C63",
   "status": "proved",
   "theorems": [
    "TinyDIP.Props.C63"
   ],
   "note": "Every pipeline: the number of optimiser passes is bounded by twice the length, proved with a decreasing measure."
  },
  {
   "property": "C64",
   "status": "partial",
   "theorems": [
    "TinyDIP.Props.C64_partial",
    "TinyDIP.Props.C64_images_partial",
    "TinyDIP.Props.C64_type_violation",
    "TinyDIP.Props.C64_factor_violation",
    "TinyDIP.Props.C64_file_violation"
   ],
   "note": "Proved for chains of copy, dct2, idct2 and multiply stages on double images over exact reals with an exact recogniser for the factor 1: every optimised pipeline leaves the user variables the same. Missing: other pixel types, textual factors that round to one, and chains ending in a file argument, which the rewriting changes (three violation witnesses)."
  },
  {
   "property": "C65",
   "status": "partial",
   "theorems": [
    "TinyDIP.Props.C65_transform_skips",
    "TinyDIP.Props.C65_partial",
    "TinyDIP.Props.C65_violation"
   ],
   "note": "Proved for lines whose pipe variables are not left over from an earlier line. Missing: stale pipe variables feed the next line (violation witness)."
  },
  {
   "property": "C66",
   "status": "partial",
   "theorems": [
    "TinyDIP.Props.C66_transform_acts",
    "TinyDIP.Props.C66_partial",
    "TinyDIP.Props.C66_empty",
    "TinyDIP.Props.C66_leftover_violation",
    "TinyDIP.Props.C66_clobber_violation",
    "TinyDIP.Props.C66_bool_violation"
   ],
   "note": "Proved when the command succeeds on every element with results of one registered type and no variable has a temporary name, without a policy and under a policy for every schedule; empty containers too. Missing: no temporaries after a failure, untouched user variables with temporary names, and containers of bool; all three violated (witnesses). The elements of a std::vector<bool> are stored as references, which no command recognises: nothing is stored without a policy, and the process ends with one (C66_bool_violation)."
  },
  {
   "property": "C67",
   "status": "partial",
   "theorems": [
    "TinyDIP.Props.C67_save_load_partial",
    "TinyDIP.Props.C67_stale_violation",
    "TinyDIP.Props.C67_unreadable_violation",
    "TinyDIP.Props.C67_name_violation"
   ],
   "note": "Proved for names that are distinct, keep a non-empty stem without a slash and whose images have a saveable format, on a directory without other readable files (C67_save_load_partial); stale file of another extension, an unreadable stale file and names without a usable stem each break the round trip (violations)."
  },
  {
   "property": "C68",
   "status": "partial",
   "theorems": [
    "TinyDIP.Props.C68_unknown_line_partial",
    "TinyDIP.Props.C68_line_partial",
    "TinyDIP.Props.C68_execute_partial",
    "TinyDIP.Props.C68_register_partial",
    "TinyDIP.Props.C68_violation"
   ],
   "note": "Proved for handlers that return or throw, for execution, registration and whole lines at the prompt. Missing: an exception inside a parallel algorithm terminates the process (violation witness)."
  },
  {
   "property": "C69",
   "status": "proved",
   "theorems": [
    "TinyDIP.Props.C69_filter",
    "TinyDIP.Props.C69_extract",
    "TinyDIP.Props.C69_anywhere",
    "TinyDIP.Props.C69_dispatch"
   ],
   "note": ""
  },
  {
   "property": "C70",
   "status": "partial",
   "theorems": [
    "TinyDIP.Props.C70_transform",
    "TinyDIP.Props.C70_transform_throw",
    "TinyDIP.Props.C70_transform_policy",
    "TinyDIP.Props.C70_reduce",
    "TinyDIP.Props.C70_predicates",
    "TinyDIP.Props.C70_count",
    "TinyDIP.Props.C70_size",
    "TinyDIP.Props.C70_flatten",
    "TinyDIP.Props.C70_size_level_partial",
    "TinyDIP.Props.C70_size_level_violation"
   ],
   "note": "recursive_transform, recursive_reduce, predicates, counts, recursive_size and recursive_flatten agree with the flat operation; recursive_size with an unwrap level reads only the first element at each level (violation)."
  },
  {
   "property": "C71",
   "status": "partial",
   "theorems": [
    "TinyDIP.Props.C71_get_partial",
    "TinyDIP.Props.C71_get_violation",
    "TinyDIP.Props.C71_erase",
    "TinyDIP.Props.C71_append",
    "TinyDIP.Props.C71_create",
    "TinyDIP.Props.C71_reject",
    "TinyDIP.Props.C71_reject_more"
   ],
   "note": "Proved for all containers except std::vector<bool>, where get_element stores a proxy type (violation witness)."
  },
  {
   "property": "C72",
   "status": "partial",
   "theorems": [
    "TinyDIP.Fit.C72_start",
    "TinyDIP.Fit.C72_step",
    "TinyDIP.Fit.C72_fit_partial",
    "TinyDIP.Fit.C72_more_iterations",
    "TinyDIP.Fit.C72_schedule",
    "TinyDIP.Fit.C72_perfect_start",
    "TinyDIP.Fit.C72_dimension",
    "TinyDIP.Fit.C72_empty_violation",
    "TinyDIP.Fit.C72_large_violation"
   ],
   "note": "Proved for every non-empty 2-D image below 2^31 pixels, iteration count, tolerance and reduction order (exact real arithmetic); an image without pixels and one of 2^31 or more pixels are undefined behaviour (violations)."
  },
  {
   "property": "C73",
   "status": "proved",
   "theorems": [
    "TinyDIP.Props.C73_getPlane",
    "TinyDIP.Props.C73_split_merge",
    "TinyDIP.Props.C73_merge_split",
    "TinyDIP.Props.C73_addChannel"
   ],
   "note": ""
  },
  {
   "property": "C74",
   "status": "proved",
   "theorems": [
    "TinyDIP.Props.C74_only_frame_changes",
    "TinyDIP.Props.C74_exact",
    "TinyDIP.Props.C74_wrap_draws_nothing"
   ],
   "note": "Region = frame of the given width around the rectangle. Only frame pixels change for every call with coordinates below 2^30; exact result when the frame lies inside; C74_wrap_draws_nothing records that a frame crossing coordinate 0 is silently not drawn."
  },
  {
   "property": "C75",
   "status": "proved",
   "theorems": [
    "TinyDIP.Props.C75_quantifiers"
   ],
   "note": ""
  },
  {
   "property": "C76",
   "status": "proved",
   "theorems": [
    "TinyDIP.Props.C76_shear_quarter_turns",
    "TinyDIP.Props.C76_shear_default",
    "TinyDIP.Props.C76_four_turns"
   ],
   "note": "Exact real arithmetic; in double precision the quarter turn is not recognised (C156)."
  },
  {
   "property": "C77",
   "status": "partial",
   "theorems": [
    "TinyDIP.Props.C77_fisheye_partial",
    "TinyDIP.Props.C77_negative_violation"
   ],
   "note": "Proved when all mapped positions are non-negative. Missing: the code converts negative positions to size_t (witness)."
  },
  {
   "property": "C78",
   "status": "proved",
   "theorems": [
    "TinyDIP.C78_throws",
    "TinyDIP.C78_jacobi",
    "TinyDIP.C78_trace",
    "TinyDIP.C78_eigenpairs"
   ],
   "note": ""
  },
  {
   "property": "C79",
   "status": "proved",
   "theorems": [
    "TinyDIP.C79_null_vector"
   ],
   "note": ""
  },
  {
   "property": "C80",
   "status": "proved",
   "theorems": [
    "TinyDIP.Props.C80_otsu"
   ],
   "note": "Exact arithmetic."
  },
  {
   "property": "C81",
   "status": "proved",
   "theorems": [
    "TinyDIP.Props.C81_threshold"
   ],
   "note": ""
  },
  {
   "property": "C82",
   "status": "partial",
   "theorems": [
    "TinyDIP.Props.C82_size_field_partial",
    "TinyDIP.Props.C82_size_field_violation"
   ],
   "note": "Holds exactly for widths that are multiples of four; the field leaves out the row padding otherwise (violation theorem)."
  },
  {
   "property": "C83",
   "status": "partial",
   "theorems": [
    "TinyDIP.Props.C83_bmp24_partial",
    "TinyDIP.Props.C83_bmp24_topdown_partial",
    "TinyDIP.Props.C83_bmp24_topdown_violation"
   ],
   "note": "Bottom-up and top-down; a top-down file with exactly one row reads as an empty image (violation theorem); files of 2^31 bytes and more excluded."
  },
  {
   "property": "C84",
   "status": "partial",
   "theorems": [
    "TinyDIP.Props.C84_ppm_samples",
    "TinyDIP.Props.C84_pgm_samples",
    "TinyDIP.Props.C84_pbm_samples",
    "TinyDIP.Props.C84_maximum_violation",
    "TinyDIP.Props.C84_missing_samples",
    "TinyDIP.Props.C84_bad_sample",
    "TinyDIP.Props.C84_ppm_failures"
   ],
   "note": "Maximum values 2^k-1, 1 <= k <= 16. For other maximum values samples wrap around (C84_maximum_violation): 100 of 100 becomes 144, 63 of 100 becomes 252. White of a P1 file is the value 1, not 255."
  },
  {
   "property": "C85",
   "status": "partial",
   "theorems": [
    "TinyDIP.Props.C85_extrema_partial",
    "TinyDIP.Props.C85_schedule",
    "TinyDIP.Props.C85_race_violation"
   ],
   "note": "Partial: iterations one after the other in any order. Violation: two iterations appending at the same time lose a key point (unsynchronised emplace_back in an omp loop)."
  },
  {
   "property": "C86",
   "status": "partial",
   "theorems": [
    "TinyDIP.Props.C86_histogram_partial",
    "TinyDIP.Props.C86_border_violation",
    "TinyDIP.Props.C86_border_matters"
   ],
   "note": "Partial: points at least block away from the left and top borders. Violation: nearer points get an empty histogram (unsigned wrap-around)."
  },
  {
   "property": "C87",
   "status": "partial",
   "theorems": [
    "TinyDIP.Props.C87_descriptor_partial",
    "TinyDIP.Props.C87_nonneg",
    "TinyDIP.Props.C87_border_violation"
   ],
   "note": "Partial: key points at least block away from the left and top borders. Violation: nearer key points get the zero descriptor."
  },
  {
   "property": "C88",
   "status": "proved",
   "theorems": [
    "TinyDIP.Stitch.C88_scale"
   ],
   "note": "Exact arithmetic."
  },
  {
   "property": "C89",
   "status": "partial",
   "theorems": [
    "TinyDIP.Stitch.C89_canvas_partial"
   ],
   "note": "Proved when image 2 sticks out by less than one pixel at the left and top (otherwise C56_offset_violation: undefined behaviour)."
  },
  {
   "property": "C90",
   "status": "partial",
   "theorems": [
    "TinyDIP.Stitch.C90_registration_partial",
    "TinyDIP.Stitch.C90_registration_violation"
   ],
   "note": "Proved for the version with an execution policy; the other version is wrong when the canvas is moved: C90_registration_violation."
  },
  {
   "property": "C91",
   "status": "partial",
   "theorems": [
    "TinyDIP.Stitch.C91_sequential_partial",
    "TinyDIP.Stitch.C91_returns",
    "TinyDIP.Stitch.C91_singular_violation"
   ],
   "note": "The two phases are arbitrary functions that may fail. A phase that throws stops the loop as stated, but a homography found singular makes the canvas size read out of an empty vector: undefined behaviour instead of the partial panorama (C91_singular_violation)."
  },
  {
   "property": "C92",
   "status": "partial",
   "theorems": [
    "TinyDIP.Props.C92_transform_reduce_partial",
    "TinyDIP.Props.C92_product_violation"
   ],
   "note": "Proved for associative and commutative operations with identity T{}; inner levels restart from T{}, so a product is always zero (violation)."
  },
  {
   "property": "C93",
   "status": "partial",
   "theorems": [
    "TinyDIP.Props.C93_mean_partial",
    "TinyDIP.Props.C93_empty",
    "TinyDIP.Props.C93_variance",
    "TinyDIP.Props.C93_deviation",
    "TinyDIP.Props.C93_root_mean_square",
    "TinyDIP.Props.C93_integer_mean_violation"
   ],
   "note": "Exact arithmetic. Missing: integer result types; the mean of negative integers is wrong (violation)."
  },
  {
   "property": "C94",
   "status": "proved",
   "theorems": [
    "TinyDIP.Props.C94_replace",
    "TinyDIP.Props.C94_filter",
    "TinyDIP.Props.C94_remove_value"
   ],
   "note": ""
  },
  {
   "property": "C95",
   "status": "partial",
   "theorems": [
    "TinyDIP.Props.C95_max_min_partial",
    "TinyDIP.Props.C95_empty",
    "TinyDIP.Props.C95_empty_violation",
    "TinyDIP.Props.C95_projection_violation",
    "TinyDIP.Props.C95_minmax"
   ],
   "note": "Proved for containers without empty parts and without a projection; violations for empty parts and projections of recursive_max. recursive_minmax is proved in full."
  },
  {
   "property": "C96",
   "status": "partial",
   "theorems": [
    "TinyDIP.Props.C96_transform_partial",
    "TinyDIP.Props.C96_transform_violation",
    "TinyDIP.Props.C96_map_reduce"
   ],
   "note": "recursive_transform is proved for equal shapes; a shorter second container is read past its end (violation). two_input_map_reduce is proved in full."
  },
  {
   "property": "C97",
   "status": "partial",
   "theorems": [
    "TinyDIP.Props.C97_for_each_partial",
    "TinyDIP.Props.C97_for_each_policy",
    "TinyDIP.Props.C97_for_each_violation",
    "TinyDIP.Props.C97_fold_right"
   ],
   "note": "Visits are proved; the state accumulated by a function object is lost (violation)."
  },
  {
   "property": "C98",
   "status": "proved",
   "theorems": [
    "TinyDIP.Props.C98_generator"
   ],
   "note": ""
  },
  {
   "property": "C99",
   "status": "proved",
   "theorems": [
    "TinyDIP.Fit.C99_step",
    "TinyDIP.Fit.C99_stationary",
    "TinyDIP.Fit.C99_jacobian"
   ],
   "note": "Exact real arithmetic."
  },
  {
   "property": "C100",
   "status": "partial",
   "theorems": [
    "TinyDIP.Fit.C100_render_partial",
    "TinyDIP.Fit.C100_amplitude_violation",
    "TinyDIP.Fit.C100_peak_violation"
   ],
   "note": "The amplitude of the parameters is ignored: what is shown is the normal density times the normalisation factor (partial + violations)."
  },
  {
   "property": "C101",
   "status": "partial",
   "theorems": [
    "TinyDIP.Props.C101_hsv_range",
    "TinyDIP.Props.C101_roundtrip_partial",
    "TinyDIP.Props.C101_exact",
    "TinyDIP.Props.C101_image_partial",
    "TinyDIP.Props.C101_roundtrip_violation"
   ],
   "note": "The hue is computed by arccos but read back as a hexagon hue, so the middle channel changes (C101_roundtrip_violation); exact when two channels agree (C101_exact). Exact real arithmetic; C153 treats rounding, where the darkest level may become one less."
  },
  {
   "property": "C102",
   "status": "partial",
   "theorems": [
    "TinyDIP.Props.C102_intensity_partial",
    "TinyDIP.Props.C102_overflow_violation",
    "TinyDIP.Props.C102_full_turn_violation"
   ],
   "note": "No clipping: undefined once the scaled value reaches 256 (C102_overflow_violation); a hue of exactly 360 gives black (C102_full_turn_violation)."
  },
  {
   "property": "C103",
   "status": "partial",
   "theorems": [
    "TinyDIP.Props.C103_roundtrip_partial",
    "TinyDIP.Props.C103_roundtrip_gray",
    "TinyDIP.Props.C103_truncate_partial",
    "TinyDIP.Props.C103_truncate_gray_partial",
    "TinyDIP.Props.C103_range_violation",
    "TinyDIP.Props.C103_range_gray_violation",
    "TinyDIP.Props.C103_empty_violation"
   ],
   "note": "Images without pixels are refused; channels of 256 and more are undefined."
  },
  {
   "property": "C104",
   "status": "proved",
   "theorems": [
    "TinyDIP.Props.C104_vivid",
    "TinyDIP.Props.C104_injective",
    "TinyDIP.Props.C104_image"
   ],
   "note": ""
  },
  {
   "property": "C105",
   "status": "partial",
   "theorems": [
    "TinyDIP.Filter.C105_filter_partial",
    "TinyDIP.Filter.C105_offset",
    "TinyDIP.Filter.C105_weights",
    "TinyDIP.Filter.C105_displacement_violation"
   ],
   "note": "The bell curve is centred on sample (n+1)/2 rather than on the pixel's own sample: C105_displacement_violation shows the one-pixel displacement for every odd window; C105_filter_partial gives the exact average computed."
  },
  {
   "property": "C106",
   "status": "proved",
   "theorems": [
    "TinyDIP.Filter.C106_range",
    "TinyDIP.Filter.C106_constant",
    "TinyDIP.Filter.C106_linear",
    "TinyDIP.Filter.C106_rejected"
   ],
   "note": ""
  },
  {
   "property": "C107",
   "status": "partial",
   "theorems": [
    "TinyDIP.Filter.C107_size",
    "TinyDIP.Filter.C107_one_sigma",
    "TinyDIP.Filter.C107_dog_partial",
    "TinyDIP.Filter.C107_antisymmetric",
    "TinyDIP.Filter.C107_constant",
    "TinyDIP.Filter.C107_small_image"
   ],
   "note": "C107_dog_partial inherits the displacement of C105."
  },
  {
   "property": "C108",
   "status": "proved",
   "theorems": [
    "TinyDIP.Filter.C108_figure1D",
    "TinyDIP.Filter.C108_figure2D",
    "TinyDIP.Filter.C108_shape",
    "TinyDIP.Filter.C108_ellipse",
    "TinyDIP.Filter.C108_ellipse_separable",
    "TinyDIP.Filter.C108_figure3D"
   ],
   "note": ""
  },
  {
   "property": "C109",
   "status": "partial",
   "theorems": [
    "TinyDIP.Filter.C109_window",
    "TinyDIP.Filter.C109_spatial_partial",
    "TinyDIP.Filter.C109_spatial_violation",
    "TinyDIP.Filter.C109_range",
    "TinyDIP.Filter.C109_constant"
   ],
   "note": "The spatial distance is computed on unsigned differences: C109_spatial_violation; the weights right of and below the centre are correct (C109_spatial_partial). Real elements only."
  },
  {
   "property": "C110",
   "status": "partial",
   "theorems": [
    "TinyDIP.Props.C110_subtract",
    "TinyDIP.Props.C110_subtract_channels",
    "TinyDIP.Props.C110_subtract_add",
    "TinyDIP.Props.C110_subtract_vectors",
    "TinyDIP.Props.C110_multiply_two",
    "TinyDIP.Props.C110_multiply_all_partial",
    "TinyDIP.Props.C110_multiply_shape_violation",
    "TinyDIP.Props.C110_divide_partial",
    "TinyDIP.Props.C110_divide_scalar",
    "TinyDIP.Props.C110_divide_vectors_partial",
    "TinyDIP.Props.C110_divide_shape_violation",
    "TinyDIP.Props.C110_negate",
    "TinyDIP.Props.C110_difference_partial",
    "TinyDIP.Props.C110_difference_three",
    "TinyDIP.Props.C110_difference_channels_violation"
   ],
   "note": "Only subtract checks shapes; the variadic/policy multiplication, the division and the difference do not (C110_multiply_shape_violation, C110_divide_shape_violation). difference on MultiChannel pixels hard-codes three channels (C110_difference_channels_violation)."
  },
  {
   "property": "C111",
   "status": "partial",
   "theorems": [
    "TinyDIP.Props.C111_planes",
    "TinyDIP.Props.C111_rejected",
    "TinyDIP.Props.C111_pointwise",
    "TinyDIP.Props.C111_multiplies",
    "TinyDIP.Props.C111_compose",
    "TinyDIP.Props.C111_two_images",
    "TinyDIP.Props.C111_construct",
    "TinyDIP.Props.C111_multi",
    "TinyDIP.Props.C111_single",
    "TinyDIP.Props.C111_single_violation",
    "TinyDIP.Props.C111_each_pixel"
   ],
   "note": "apply_each_single_output with a count above three reads outside the pixel (C111_single_violation)."
  },
  {
   "property": "C112",
   "status": "partial",
   "theorems": [
    "TinyDIP.Resample.C112_resize_partial",
    "TinyDIP.Resample.C112_weights",
    "TinyDIP.Resample.C112_at_sample",
    "TinyDIP.Resample.C112_constant_value",
    "TinyDIP.Resample.C112_same_size",
    "TinyDIP.Resample.C112_enlarge",
    "TinyDIP.Resample.C112_constant",
    "TinyDIP.Resample.C112_u8_violation",
    "TinyDIP.Resample.C112_rgb_violation",
    "TinyDIP.Resample.C112_u8_case_violation"
   ],
   "note": "On 8-bit elements the fractions are converted to the element type and become zero, so the result is that of nearest-neighbour resizing (C112_u8_violation, C112_rgb_violation); real elements are proved in full."
  },
  {
   "property": "C113",
   "status": "partial",
   "theorems": [
    "TinyDIP.Resample.C113_kernel",
    "TinyDIP.Resample.C113_interpolating",
    "TinyDIP.Resample.C113_total_weight",
    "TinyDIP.Resample.C113_resample",
    "TinyDIP.Resample.C113_same_size",
    "TinyDIP.Resample.C113_constant",
    "TinyDIP.Resample.C113_rejected",
    "TinyDIP.Resample.C113_no_lobes_violation"
   ],
   "note": "A lobe count that is not positive is accepted and yields a picture of zeros (C113_no_lobes_violation). bool and complex elements are not modelled."
  },
  {
   "property": "C114",
   "status": "partial",
   "theorems": [
    "TinyDIP.Resample.C114_normalize_partial",
    "TinyDIP.Resample.C114_order",
    "TinyDIP.Resample.C114_constant_violation"
   ],
   "note": "An image of one value divides zero by zero (C114_constant_violation)."
  },
  {
   "property": "C115",
   "status": "partial",
   "theorems": [
    "TinyDIP.Props.C115_frame",
    "TinyDIP.Props.C115_missing",
    "TinyDIP.Props.C115_max_partial",
    "TinyDIP.Props.C115_min_partial",
    "TinyDIP.Props.C115_empty_violation",
    "TinyDIP.Props.C115_channels",
    "TinyDIP.Props.C115_sum_partial",
    "TinyDIP.Props.C115_sum_unsigned",
    "TinyDIP.Props.C115_sum_overflow_violation",
    "TinyDIP.Props.C115_sum_violation",
    "TinyDIP.Props.C115_sum_bool_violation",
    "TinyDIP.Props.C115_sum_channels"
   ],
   "note": "Empty data: max and min are undefined behaviour (C115_empty_violation). The sum is kept in the element type: 8-bit sums wrap, int overflow is undefined, bool sums saturate at one (C115_sum_violation, C115_sum_overflow_violation, C115_sum_bool_violation)."
  },
  {
   "property": "C116",
   "status": "partial",
   "theorems": [
    "TinyDIP.Props.C116_frame",
    "TinyDIP.Props.C116_add_partial",
    "TinyDIP.Props.C116_subtract_partial",
    "TinyDIP.Props.C116_rejected",
    "TinyDIP.Props.C116_few",
    "TinyDIP.Props.C116_roundtrip_partial",
    "TinyDIP.Props.C116_comm",
    "TinyDIP.Props.C116_channels",
    "TinyDIP.Props.C116_overflow_violation"
   ],
   "note": "int overflow is undefined behaviour (C116_overflow_violation); containers are loaded but never added (C116_rejected). MultiChannel and complex images are behind the parameter ext."
  },
  {
   "property": "C117",
   "status": "partial",
   "theorems": [
    "TinyDIP.Props.C117_count_partial",
    "TinyDIP.Props.C117_count_shown",
    "TinyDIP.Props.C117_count_signed_violation",
    "TinyDIP.Props.C117_count_image_violation",
    "TinyDIP.Props.C117_count_rejected",
    "TinyDIP.Props.C117_count_frame",
    "TinyDIP.Props.C117_replace_container_partial",
    "TinyDIP.Props.C117_replace_image_partial",
    "TinyDIP.Props.C117_replace_image_violation",
    "TinyDIP.Props.C117_replace_policy_violation",
    "TinyDIP.Props.C117_replace_count",
    "TinyDIP.Props.C117_replace_frame"
   ],
   "note": "count on an image never delivers a result because a signed count is cast to an unsigned one (C117_count_image_violation); int and size_t are compared modulo 2^64 (C117_count_signed_violation); replace on images converts the value to the pixel type first (C117_replace_image_violation); with an execution policy replace on containers refuses values of two types (C117_replace_policy_violation)."
  },
  {
   "property": "C118",
   "status": "partial",
   "theorems": [
    "TinyDIP.Props.C118_construct",
    "TinyDIP.Props.C118_construct_mismatch",
    "TinyDIP.Props.C118_construct_rejected",
    "TinyDIP.Props.C118_grid_partial",
    "TinyDIP.Props.C118_grid_violation",
    "TinyDIP.Props.C118_grid_rejected",
    "TinyDIP.Props.C118_frame"
   ],
   "note": "A cell size of zero divides by zero (C118_grid_violation)."
  },
  {
   "property": "C119",
   "status": "partial",
   "theorems": [
    "TinyDIP.Props.C119_command_partial",
    "TinyDIP.Props.C119_command_violation",
    "TinyDIP.Props.C119_command_colour",
    "TinyDIP.Props.C119_command_rejected",
    "TinyDIP.Props.C119_command_frame",
    "TinyDIP.Distance.C119_euclidean",
    "TinyDIP.Distance.C119_euclidean_coordinates",
    "TinyDIP.Distance.C119_gray",
    "TinyDIP.Distance.C119_unsigned_violation",
    "TinyDIP.Distance.C119_colour_partial",
    "TinyDIP.Distance.C119_colour_size_violation",
    "TinyDIP.Distance.C119_colour_count",
    "TinyDIP.Distance.C119_rgb_violation",
    "TinyDIP.Distance.C119_multi",
    "TinyDIP.Distance.C119_point",
    "TinyDIP.Distance.C119_point_metric",
    "TinyDIP.Distance.C119_manhattan_colour",
    "TinyDIP.Distance.C119_manhattan_triangle"
   ],
   "note": "For unsigned int pixels the difference wraps, so the distance is not symmetric (C119_unsigned_violation); for RGB the 8-bit channel difference wraps (C119_rgb_violation); colour images are compared by pixel count only, so a 2x1 and a 1x2 image are accepted and have distance 0 (C119_colour_size_violation); the command overflows int (C119_command_violation). The range overloads of euclidean_distance call a class name as a function and cannot be instantiated; the MultiChannel overload only compiles for double."
  },
  {
   "property": "C120",
   "status": "partial",
   "theorems": [
    "TinyDIP.Props.C120_trig",
    "TinyDIP.Props.C120_trig_complex",
    "TinyDIP.Props.C120_inverse",
    "TinyDIP.Props.C120_channels",
    "TinyDIP.Props.C120_multi",
    "TinyDIP.Props.C120_pixel",
    "TinyDIP.Props.C120_pow",
    "TinyDIP.Props.C120_pow_channels",
    "TinyDIP.Props.C120_abs",
    "TinyDIP.Props.C120_abs_int_partial",
    "TinyDIP.Props.C120_abs_int_violation",
    "TinyDIP.Props.C120_complex",
    "TinyDIP.Props.C120_sort"
   ],
   "note": "abs of the smallest int is undefined behaviour (C120_abs_int_violation). With integer elements the trigonometric functions do not compile."
  },
  {
   "property": "C121",
   "status": "partial",
   "theorems": [
    "TinyDIP.Props.C121_generate_partial",
    "TinyDIP.Props.C121_generate_violation",
    "TinyDIP.Props.C121_constant",
    "TinyDIP.Props.C121_neutral",
    "TinyDIP.Props.C121_rand_partial",
    "TinyDIP.Props.C121_randi_partial",
    "TinyDIP.Props.C121_randi_violation"
   ],
   "note": "The pixel count is computed in int: 65536x65536 counts as zero pixels and 65536x32768 throws length_error (C121_generate_violation); randi with max below 1 is undefined (C121_randi_violation)."
  },
  {
   "property": "C122",
   "status": "partial",
   "theorems": [
    "TinyDIP.Props.C122_sign",
    "TinyDIP.Props.C122_size_partial",
    "TinyDIP.Props.C122_size_violation"
   ],
   "note": "is_size_same looks at the first two dimensions only (C122_size_violation)."
  },
  {
   "property": "C123",
   "status": "partial",
   "theorems": [
    "TinyDIP.Props.C123_access",
    "TinyDIP.Props.C123_construct_partial",
    "TinyDIP.Props.C123_construct_violation",
    "TinyDIP.Props.C123_stack_partial",
    "TinyDIP.Props.C123_stack_violation",
    "TinyDIP.Props.C123_stack_smaller",
    "TinyDIP.Props.C123_plus_partial",
    "TinyDIP.Props.C123_arithmetic_partial",
    "TinyDIP.Props.C123_arithmetic_violation",
    "TinyDIP.Props.C123_equal"
   ],
   "note": "The size constructor reads its own uninitialised members (C123_construct_violation); an empty vector of pictures is undefined and larger later pictures are cropped silently (C123_stack_violation); the voxelwise operations compare no sizes (C123_arithmetic_violation)."
  },
  {
   "property": "C124",
   "status": "partial",
   "theorems": [
    "TinyDIP.Props.C124_rgb",
    "TinyDIP.Props.C124_real",
    "TinyDIP.Props.C124_array",
    "TinyDIP.Props.C124_point",
    "TinyDIP.Props.C124_hsv_order_partial",
    "TinyDIP.Props.C124_hsv_nan_violation",
    "TinyDIP.Props.C124_text"
   ],
   "note": "With a NaN channel the HSV order is not a strict weak order (C124_hsv_nan_violation)."
  },
  {
   "property": "C125",
   "status": "partial",
   "theorems": [
    "TinyDIP.Props.C125_sequential",
    "TinyDIP.Props.C125_policy_partial",
    "TinyDIP.Props.C125_policy_violation",
    "TinyDIP.Props.C125_hypot"
   ],
   "note": "For functions that are not associative and commutative the policy versions can give another result (C125_policy_violation)."
  },
  {
   "property": "C126",
   "status": "partial",
   "theorems": [
    "TinyDIP.Props.C126_butterworth_partial",
    "TinyDIP.Props.C126_centre",
    "TinyDIP.Props.C126_dimension",
    "TinyDIP.Props.C126_zero_violation"
   ],
   "note": "A cutoff of zero with an order other than zero and a pixel at the centre converts NaN to an index, which is undefined behaviour (C126_zero_violation)."
  },
  {
   "property": "C127",
   "status": "partial",
   "theorems": [
    "TinyDIP.Props.C127_window",
    "TinyDIP.Props.C127_outside_partial",
    "TinyDIP.Props.C127_outside_violation",
    "TinyDIP.Props.C127_rejected",
    "TinyDIP.Props.C127_frame"
   ],
   "note": "Offset plus size is added in 64 bits without a check: a wrapping sum passes the bounds check, and with an execution policy the out_of_range exception then ends the process; so does any window of a 3-D image (C127_outside_violation)."
  },
  {
   "property": "C128",
   "status": "partial",
   "theorems": [
    "TinyDIP.Props.C128_readonly",
    "TinyDIP.Props.C128_info",
    "TinyDIP.Props.C128_print_partial",
    "TinyDIP.Props.C128_print_violation",
    "TinyDIP.Props.C128_vars",
    "TinyDIP.Props.C128_write"
   ],
   "note": "print reports containers of images (the result of sift_generate_octave) as not found or unsupported (C128_print_violation)."
  },
  {
   "property": "C129",
   "status": "partial",
   "theorems": [
    "TinyDIP.Props.C129_rand_partial",
    "TinyDIP.Props.C129_rejected",
    "TinyDIP.Props.C129_rand_violation"
   ],
   "note": "The pixel count is an int: 65536x65536 fails (C129_rand_violation)."
  },
  {
   "property": "C130",
   "status": "partial",
   "theorems": [
    "TinyDIP.Stitch.C130_brightness",
    "TinyDIP.Stitch.C130_distance",
    "TinyDIP.Stitch.C130_homography",
    "TinyDIP.Stitch.C130_failure",
    "TinyDIP.Stitch.C130_imstitch_partial",
    "TinyDIP.Stitch.C130_no_model_violation"
   ],
   "note": "The key point detector is any function that returns; its own properties are C49, C50 and C86 to C88. When no sample gives a model the search returns the 3x3 zero matrix, which is not empty, so a caller cannot see the failure (C130_no_model_violation)."
  },
  {
   "property": "C131",
   "status": "partial",
   "theorems": [
    "TinyDIP.Stitch.C131_draw_partial",
    "TinyDIP.Stitch.C131_same_height",
    "TinyDIP.Stitch.C131_height_violation",
    "TinyDIP.Stitch.C131_range_violation"
   ],
   "note": "When heights differ the lower image is stretched but its key points are drawn at their old rows (C131_height_violation); match indices are not checked (C131_range_violation); discs near the left and top border are not drawn (C45)."
  },
  {
   "property": "C132",
   "status": "partial",
   "theorems": [
    "TinyDIP.Props.C132_load",
    "TinyDIP.Props.C132_no_directory",
    "TinyDIP.Props.C132_core",
    "TinyDIP.Props.C132_roles",
    "TinyDIP.Props.C132_order_partial",
    "TinyDIP.Props.C132_order_violation",
    "TinyDIP.Props.C132_shipped"
   ],
   "note": "When two plugins use the same name, the order in which the file system lists them decides (C132_order_violation); without such a clash the order is irrelevant (C132_order_partial). The roles of the commands are the list in Spec/Plugin.lean (C132_roles)."
  },
  {
   "property": "C133",
   "status": "partial",
   "theorems": [
    "TinyDIP.Props.C133_references",
    "TinyDIP.Props.C133_shutdown",
    "TinyDIP.Props.C133_loaded_partial",
    "TinyDIP.Props.C133_throw_violation",
    "TinyDIP.Props.C133_assign"
   ],
   "note": "A module that throws after having registered a command is unloaded while its command stays registered: running it, or just ending the program, uses unloaded code (C133_throw_violation). C133_loaded_partial excludes this."
  },
  {
   "property": "C134",
   "status": "partial",
   "theorems": [
    "TinyDIP.Props.C134_same_as_interactive_partial",
    "TinyDIP.Props.C134_status_violation",
    "TinyDIP.Props.C134_unreadable_violation"
   ],
   "note": "The exit status is success for unknown commands and for commands that failed (C134_status_violation); an existing plugin directory that cannot be read ends the program before the command is run (C134_unreadable_violation). The equality with the interactive mode excludes exit, quit, multiply (C64) and words with blanks or bars."
  },
  {
   "property": "C135",
   "status": "partial",
   "theorems": [
    "TinyDIP.Cuda.C135_one_thread",
    "TinyDIP.Cuda.C135_warp",
    "TinyDIP.Cuda.C135_same_as_cpu_partial",
    "TinyDIP.Cuda.C135_border_violation",
    "TinyDIP.Cuda.C135_empty_violation"
   ],
   "note": "Near the border of the source the device takes a nearest pixel where the host interpolates (C135_border_violation); an output without pixels or an empty matrix makes the device version fail where the host returns an image (C135_empty_violation). Device arithmetic is taken as exact."
  },
  {
   "property": "C136",
   "status": "partial",
   "theorems": [
    "TinyDIP.Cuda.C136_failure_reported",
    "TinyDIP.Cuda.C136_released_partial",
    "TinyDIP.Cuda.C136_double_release_violation"
   ],
   "note": "When the release of the output buffer fails, the source buffer is released a second time (C136_double_release_violation)."
  },
  {
   "property": "C137",
   "status": "partial",
   "theorems": [
    "TinyDIP.Cuda.C137_schedules_partial",
    "TinyDIP.Cuda.C137_same_as_cpu_partial",
    "TinyDIP.Cuda.C137_pixels"
   ],
   "note": "C137_schedules_partial needs a canvas moved by less than one pixel (beyond that blending is undefined, C56); agreement with the host needs an unmoved canvas and source positions away from the border, outside, or on a pixel (C135)."
  },
  {
   "property": "C138",
   "status": "proved",
   "theorems": [
    "TinyDIP.Props.C138_double",
    "TinyDIP.Props.C138_three_channels",
    "TinyDIP.Props.C138_byte",
    "TinyDIP.Props.C138_rgb",
    "TinyDIP.Props.C138_frame",
    "TinyDIP.Props.C138_rejected"
   ],
   "note": "Multichannel arrays, complex images, containers and images that are empty or not two-dimensional go through an arbitrary function of the model (`ext`). Arithmetic is exact; in double precision im2uint8 after the round trip may give one level less (C175)."
  },
  {
   "property": "C139",
   "status": "partial",
   "theorems": [
    "TinyDIP.Props.C139_bicubic_partial",
    "TinyDIP.Props.C139_bicubic_three_partial",
    "TinyDIP.Props.C139_bicubic_byte_violation",
    "TinyDIP.Props.C139_lanczos_partial",
    "TinyDIP.Props.C139_lanczos_same_size",
    "TinyDIP.Props.C139_radius_violation",
    "TinyDIP.Props.C139_rejected"
   ],
   "note": "8-bit and colour images are not interpolated by bicubic_resize (C139_bicubic_byte_violation); the radius is converted to int without a check, so radius 0 or 2^32 stores a black image (C139_radius_violation); radii from 2^31 and images of 2^31 pixels a side are excluded."
  },
  {
   "property": "C140",
   "status": "partial",
   "theorems": [
    "TinyDIP.Props.C140_conversion",
    "TinyDIP.Props.C140_range_violation",
    "TinyDIP.Props.C140_empty",
    "TinyDIP.Props.C140_planes",
    "TinyDIP.Props.C140_hsv_partial",
    "TinyDIP.Props.C140_refused"
   ],
   "note": "hsv2rgb keeps the brightest and darkest channels only (C140_hsv_partial, see C101); im2uint8 of a channel of 256 or more is undefined (C140_range_violation)."
  },
  {
   "property": "C141",
   "status": "partial",
   "theorems": [
    "TinyDIP.Props.C141_copy",
    "TinyDIP.Props.C141_remove",
    "TinyDIP.Props.C141_remove_all",
    "TinyDIP.Props.C141_rename_partial",
    "TinyDIP.Props.C141_rejected",
    "TinyDIP.Props.C141_read",
    "TinyDIP.Props.C141_quoted_variable",
    "TinyDIP.Props.C141_quoted_extension",
    "TinyDIP.Props.C141_read_default"
   ],
   "note": "rename to the same name deletes the variable (C61_violation). A variable in quotation marks is taken for a file name and is found only if it holds an image of the type its ending stands for (C141_quoted_variable)."
  },
  {
   "property": "C142",
   "status": "partial",
   "theorems": [
    "TinyDIP.Props.C142_create_partial",
    "TinyDIP.Props.C142_file_partial",
    "TinyDIP.Props.C142_rejected",
    "TinyDIP.Props.C142_wrap_violation"
   ],
   "note": "Sizes whose product is 2^64 or more are multiplied modulo 2^64 and give an image with too few pixels (C142_wrap_violation). Memory exhaustion is not modelled."
  },
  {
   "property": "C143",
   "status": "proved",
   "theorems": [
    "TinyDIP.Props.C143_every_angle",
    "TinyDIP.Props.C143_whole_turns",
    "TinyDIP.Props.C143_nothing_cut_off",
    "TinyDIP.Props.C143_no_waste",
    "TinyDIP.Props.C143_value",
    "TinyDIP.Props.C143_default",
    "TinyDIP.Props.C143_value_exact",
    "TinyDIP.Props.C143_refused"
   ],
   "note": "Angles are exact real numbers."
  },
  {
   "property": "C144",
   "status": "partial",
   "theorems": [
    "TinyDIP.Props.C144_rotate_grey",
    "TinyDIP.Props.C144_rotate_colour",
    "TinyDIP.Props.C144_rotate_rejected",
    "TinyDIP.Props.C144_normalize_partial",
    "TinyDIP.Props.C144_normalize_constant_violation",
    "TinyDIP.Props.C144_normalize_refused",
    "TinyDIP.Props.C144_normalize_numbers_violation"
   ],
   "note": "A constant image becomes 0/0 in every pixel (C144_normalize_constant_violation). A container of numbers is refused without a policy word, but with one the refusal happens inside a parallel algorithm and ends the process (C144_normalize_numbers_violation). MultiChannel and complex images are not modelled."
  },
  {
   "property": "C145",
   "status": "partial",
   "theorems": [
    "TinyDIP.Props.C145_octave_partial",
    "TinyDIP.Props.C145_sum",
    "TinyDIP.Props.C145_few",
    "TinyDIP.Props.C145_command_partial",
    "TinyDIP.Props.C145_small_violation",
    "TinyDIP.Props.C145_default_violation",
    "TinyDIP.Props.C145_rejected",
    "TinyDIP.Props.C145_colour_violation"
   ],
   "note": "If some window is not smaller than the image, an exception leaves an OpenMP loop and the process ends (C145_small_violation); with the default values this happens for every image of at most 27 pixels in one direction (C145_default_violation). Every colour image is refused with a message (C145_colour_violation): the two overloads of generate_octave are both viable for colour pixels and neither is more constrained, so the test for the operation at main.cpp 740 is false; HSV and RGB_DOUBLE images already fail the test at 760."
  },
  {
   "property": "C146",
   "status": "proved",
   "theorems": [
    "TinyDIP.Props.C146_to_complex",
    "TinyDIP.Props.C146_to_complex_bool",
    "TinyDIP.Props.C146_dct3",
    "TinyDIP.Props.C146_dct3_solid",
    "TinyDIP.Props.C146_dct3_refused",
    "TinyDIP.Props.C146_gaussian",
    "TinyDIP.Props.C146_gaussian_rejected"
   ],
   "note": "gaussian_figure_2d is the only generator that does not skip policy words: with one in front it fails (C146_gaussian_rejected)."
  },
  {
   "property": "C147",
   "status": "partial",
   "theorems": [
    "TinyDIP.Props.C147_keypoints_partial",
    "TinyDIP.Props.C147_inside",
    "TinyDIP.Props.C147_small_violation",
    "TinyDIP.Props.C147_missing_violation",
    "TinyDIP.Props.C147_levels_violation",
    "TinyDIP.Props.C147_default_violation",
    "TinyDIP.Props.C147_method",
    "TinyDIP.Props.C147_rejected"
   ],
   "note": "With the default values the command never stores anything for a picture smaller than 224 pixels in one direction (C147_default_violation): a window that is not smaller than the picture of its octave ends the process (C147_small_violation), an octave that does not exist is read out of bounds (C147_missing_violation). Fewer than three levels are undefined behaviour (C147_levels_violation). Iterations that append to the list at the same time are not covered (C85_race_violation)."
  },
  {
   "property": "C148",
   "status": "partial",
   "theorems": [
    "TinyDIP.Props.C148_images_partial",
    "TinyDIP.Props.C148_colour",
    "TinyDIP.Props.C148_containers_partial",
    "TinyDIP.Props.C148_bool",
    "TinyDIP.Props.C148_bool_race_violation",
    "TinyDIP.Props.C148_overflow_violation",
    "TinyDIP.Props.C148_rejected"
   ],
   "note": "The smallest int has no absolute value: undefined behaviour (C148_overflow_violation). Under par and par_unseq an image or vector of at least two truth values is a data race on the bits of std::vector<bool> (C148_bool_race_violation); other policies are covered by C148_bool."
  },
  {
   "property": "C149",
   "status": "partial",
   "theorems": [
    "TinyDIP.Props.C149_filter",
    "TinyDIP.Props.C149_whole_turns",
    "TinyDIP.Props.C149_rejected",
    "TinyDIP.Props.C149_colour",
    "TinyDIP.Props.C149_constant_violation"
   ],
   "note": "Constant pictures do not stay constant: outside of the turned picture everything counts as zero, so borders are darkened; the one-pixel picture of value 1 becomes 0 when turned by 45 degrees (C149_constant_violation). 8-bit pictures are not covered."
  },
  {
   "property": "C150",
   "status": "partial",
   "theorems": [
    "TinyDIP.Props.C150_flips",
    "TinyDIP.Props.C150_parts",
    "TinyDIP.Props.C150_each_pixel",
    "TinyDIP.Props.C150_window_violation",
    "TinyDIP.Props.C150_window_single",
    "TinyDIP.Props.C150_bool_violation",
    "TinyDIP.Props.C150_lost_violation",
    "TinyDIP.Props.C150_append_one",
    "TinyDIP.Props.C150_append_violation"
   ],
   "note": "Three loops race: windowed_filter reads the windows from the picture it writes, so from windows of two pixels on every complete execution races (C150_window_violation; single-pixel windows are fine, C150_window_single); find_local_extrema appends to one vector from all iterations (C150_append_violation); results of type bool share words of std::vector<bool>, and a result can be lost (C150_bool_violation, C150_lost_violation)."
  },
  {
   "property": "C151",
   "status": "partial",
   "theorems": [
    "TinyDIP.Props.C151_resize_partial",
    "TinyDIP.Props.C151_whole",
    "TinyDIP.Props.C151_same",
    "TinyDIP.Props.C151_proportion_violation",
    "TinyDIP.Props.C151_enlarge_shrink_violation"
   ],
   "note": "Safe for every size and exact for whole shrinking factors (C151_resize_partial, C151_whole, C151_same). The position can be one too small where the exact position is a whole number: enlarged 49 times, a row of two pixels shows the first one 50 times (C151_proportion_violation), and shrinking back gives the first pixel twice (C151_enlarge_shrink_violation). C43 is the same property with exact arithmetic."
  },
  {
   "property": "C152",
   "status": "partial",
   "theorems": [
    "TinyDIP.Props.C152_between_partial",
    "TinyDIP.Props.C152_grid",
    "TinyDIP.Props.C152_constant_violation",
    "TinyDIP.Props.C152_blend_partial",
    "TinyDIP.Props.C152_blend_violation"
   ],
   "note": "Never above the largest value, possibly one below the smallest (C152_between_partial, C152_blend_partial); exact at pixel positions. Between two pixels of value 29 the result is 28 (C152_constant_violation, C152_blend_violation). C41 and C56 are the properties with exact arithmetic."
  },
  {
   "property": "C153",
   "status": "partial",
   "theorems": [
    "TinyDIP.Props.C153_levels_partial",
    "TinyDIP.Props.C153_grey",
    "TinyDIP.Props.C153_roundtrip_violation"
   ],
   "note": "The arc cosine is any function accurate to 2^-50 on its domain; its argument never leaves the domain. The darkest level may become one less (C153_levels_partial); (3,1,1) becomes (3,0,0) (C153_roundtrip_violation). Missing: which channel keeps which level, which C101 proves with exact arithmetic."
  },
  {
   "property": "C154",
   "status": "proved",
   "theorems": [
    "TinyDIP.Props.C154_histogram",
    "TinyDIP.Props.C154_descriptor",
    "TinyDIP.Props.C154_last"
   ],
   "note": "Rounding to double with unbounded exponents; atan2 returns a value from -pi to pi as rounded to double."
  },
  {
   "property": "C155",
   "status": "proved",
   "theorems": [
    "TinyDIP.Props.C155_normalize"
   ],
   "note": "Rounding to double with unbounded exponents, so neither overflow of the difference nor subnormal quotients are covered."
  },
  {
   "property": "C156",
   "status": "partial",
   "theorems": [
    "TinyDIP.Props.C156_quarter_violation",
    "TinyDIP.Props.C156_quarter_double",
    "TinyDIP.Props.C156_size_violation"
   ],
   "note": "No double equals half of the 64-bit long double pi, so the branch for quarter turns is never taken (C156_quarter_violation), and a 2 x 1 picture becomes 2 x 2 (C156_size_violation). With a 53-bit long double the branch is taken (C156_quarter_double)."
  },
  {
   "property": "C157",
   "status": "partial",
   "theorems": [
    "TinyDIP.Props.C157_bicubic_partial",
    "TinyDIP.Props.C157_large_violation"
   ],
   "note": "Proved for pictures of at most 2^p columns and rows for precision p; with float a picture of 2^24+3 columns fails even when its size is kept (C157_large_violation). The position can be one too small as in C151."
  },
  {
   "property": "C158",
   "status": "partial",
   "theorems": [
    "TinyDIP.Props.C158_byte_partial",
    "TinyDIP.Props.C158_double_partial",
    "TinyDIP.Props.C158_finite",
    "TinyDIP.Props.C158_outside",
    "TinyDIP.Props.C158_nan_violation"
   ],
   "note": "Every position without NaN is safe (C158_byte_partial, C158_double_partial); finite positions agree with the rounding model of C152 (C158_finite). A NaN coordinate whose partner is not outside is converted to an index: undefined behaviour (C158_nan_violation)."
  },
  {
   "property": "C159",
   "status": "partial",
   "theorems": [
    "TinyDIP.Props.C159_byte_partial",
    "TinyDIP.Props.C159_double_partial",
    "TinyDIP.Props.C159_accuracy",
    "TinyDIP.Props.C159_nan_violation",
    "TinyDIP.Props.C159_command_partial",
    "TinyDIP.Props.C159_command_violation"
   ],
   "note": "Every finite angle is safe (C159_byte_partial, C159_double_partial, C159_command_partial) and accurate when the library functions are (C159_accuracy). Infinities and NaN are undefined behaviour, and the command accepts the words nan, inf and infinity (C159_nan_violation, C159_command_violation). The command is modelled here for 8-bit pictures."
  },
  {
   "property": "C160",
   "status": "partial",
   "theorems": [
    "TinyDIP.Props.C160_warp_partial",
    "TinyDIP.Props.C160_nan_violation",
    "TinyDIP.Props.C160_overflow_violation"
   ],
   "note": "Safe for entries up to 2^300 (C160_warp_partial). A NaN in the last row (C160_nan_violation) and overflowing finite entries (C160_overflow_violation) are undefined behaviour through C158. Missing: the exact set of matrices between these bounds."
  },
  {
   "property": "C161",
   "status": "partial",
   "theorems": [
    "TinyDIP.Props.C161_new",
    "TinyDIP.Props.C161_addCount",
    "TinyDIP.Props.C161_image",
    "TinyDIP.Props.C161_read",
    "TinyDIP.Props.C161_write",
    "TinyDIP.Props.C161_size_dense",
    "TinyDIP.Props.C161_size_violation",
    "TinyDIP.Props.C161_wrong_kind",
    "TinyDIP.Props.C161_short_vector"
   ],
   "note": "Proved for both containers. size() of a map histogram is not the number of levels that occur: reading h[k] of an absent level inserts it (C161_size_violation). A container of the wrong kind, or a vector too short, is refused or undefined as stated in C161_wrong_kind and C161_short_vector."
  },
  {
   "property": "C162",
   "status": "partial",
   "theorems": [
    "TinyDIP.Props.C162_live_loop_partial",
    "TinyDIP.Props.C162_violation",
    "TinyDIP.Props.C162_first_violation"
   ],
   "note": "begin() and end() return iterators into copies that no longer exist, so every range-for over a Histogram is undefined behaviour (C162_violation, C162_first_violation). C162_live_loop_partial states what the loop would do with iterators into a container that exists."
  },
  {
   "property": "C163",
   "status": "proved",
   "theorems": [
    "TinyDIP.Props.C163_threshold"
   ],
   "note": "Exact arithmetic, every grouping of the sums."
  },
  {
   "property": "C164",
   "status": "partial",
   "theorems": [
    "TinyDIP.Props.C164_partial",
    "TinyDIP.Props.C164_violation"
   ],
   "note": "Holds while the total fits the type of the counts (C164_partial); with 8-bit counts 200 and 100 the total wraps to 44 (C164_violation)."
  },
  {
   "property": "C165",
   "status": "proved",
   "theorems": [
    "TinyDIP.Props.C165_conv2",
    "TinyDIP.Props.C165_fisheye",
    "TinyDIP.Props.C165_fisheye_int",
    "TinyDIP.Props.C165_bilateral",
    "TinyDIP.Props.C165_bilinear",
    "TinyDIP.Props.C165_rotate"
   ],
   "note": "Exact arithmetic. The fisheye statement needs the source positions to be non-negative (C77)."
  },
  {
   "property": "C166",
   "status": "proved",
   "theorems": [
    "TinyDIP.Props.C166_distance",
    "TinyDIP.Props.C166_metric",
    "TinyDIP.Props.C166_weight"
   ],
   "note": "Exact arithmetic, one-channel real pictures. The strength must not be 0."
  },
  {
   "property": "C167",
   "status": "partial",
   "theorems": [
    "TinyDIP.Props.C167_planar",
    "TinyDIP.Props.C167_any_dimension",
    "TinyDIP.Props.C167_empty_violation"
   ],
   "note": "Proved for pictures with at least one pixel; a picture without pixels is read outside of its data (C167_empty_violation)."
  },
  {
   "property": "C168",
   "status": "partial",
   "theorems": [
    "TinyDIP.Props.C168_degrees_violation",
    "TinyDIP.Props.C168_colour_violation",
    "TinyDIP.Props.C168_shear_degrees",
    "TinyDIP.Props.C168_shear_whole_turns",
    "TinyDIP.Props.C168_integer_partial"
   ],
   "note": "rotate_degree and rotate drop every quarter turn (C168_degrees_violation, C168_colour_violation, see C21); the shear form is correct (C168_shear_degrees, C168_shear_whole_turns). Exact arithmetic. Missing for rotate with integer radians: where the pixels go (C168_integer_partial)."
  },
  {
   "property": "C169",
   "status": "partial",
   "theorems": [
    "TinyDIP.Props.C169_unsigned",
    "TinyDIP.Props.C169_signed_partial",
    "TinyDIP.Props.C169_signed_violation",
    "TinyDIP.Props.C169_refused"
   ],
   "note": "Proved for unsigned elements; for signed ones while the difference fits the type (C169_signed_partial). Otherwise the result is negative for types narrower than int and undefined for the others (C169_signed_violation)."
  },
  {
   "property": "C170",
   "status": "proved",
   "theorems": [
    "TinyDIP.Props.C170_text",
    "TinyDIP.Props.C170_lossless"
   ],
   "note": "The stream is taken to be writable."
  },
  {
   "property": "C171",
   "status": "proved",
   "theorems": [
    "TinyDIP.Props.C171_to_double",
    "TinyDIP.Props.C171_to_string",
    "TinyDIP.Props.C171_to_complex"
   ],
   "note": "to_string is stated for int elements; to_double for one channel."
  },
  {
   "property": "C172",
   "status": "partial",
   "theorems": [
    "TinyDIP.Props.C172_fit_partial",
    "TinyDIP.Props.C172_schedule",
    "TinyDIP.Props.C172_more_iterations",
    "TinyDIP.Props.C172_empty_violation",
    "TinyDIP.Props.C172_large_violation",
    "TinyDIP.Props.C172_rejected"
   ],
   "note": "Proved for pictures of double and of bytes with at least one and fewer than 2^31 pixels, under every schedule (exact real arithmetic); a picture without pixels or with 2^31 or more pixels is undefined behaviour (violations). Images of other integer types are a parameter of the model."
  },
  {
   "property": "C173",
   "status": "proved",
   "theorems": [
    "TinyDIP.Props.C173_layout",
    "TinyDIP.Props.C173_planar",
    "TinyDIP.Props.C173_lossless"
   ],
   "note": "The text of one element is a parameter (it must be legible for the second part)."
  },
  {
   "property": "C174",
   "status": "proved",
   "theorems": [
    "TinyDIP.Props.C174_lossless",
    "TinyDIP.Props.C174_lines"
   ],
   "note": "The text of one element is a parameter."
  },
  {
   "property": "C175",
   "status": "partial",
   "theorems": [
    "TinyDIP.Props.C175_round_trip_partial",
    "TinyDIP.Props.C175_off_by_one_violation"
   ],
   "note": "im2uint8 truncates, so an error of any size below a whole level loses one level: the 2 x 1 picture (1, 20) becomes (0, 20) with a correctly rounded cosine (C175_off_by_one_violation). C175_round_trip_partial: never more than one level, and never undefined."
  },
  {
   "property": "C176",
   "status": "partial",
   "theorems": [
    "TinyDIP.Props.C176_calls_partial",
    "TinyDIP.Props.C176_closed",
    "TinyDIP.Props.C176_bmp_violation"
   ],
   "note": "bmp_file_read never closes the file it opens (image_io.cpp 201). With a limit of N+1 files, reading the same file gives its picture N times, then silently a picture without pixels, then exceptions, and nothing can be written any more (C176_bmp_violation). load_workspace of a directory with that many .bmp files meets this too. double_image::read and hsv_read do not close the file either when a size field is 2^32 - 1."
  },
  {
   "property": "C177",
   "status": "partial",
   "theorems": [
    "TinyDIP.Props.C177_sequential",
    "TinyDIP.Props.C177_complete_violation",
    "TinyDIP.Props.C177_every_schedule",
    "TinyDIP.Props.C177_finished",
    "TinyDIP.Props.C177_complete_partial",
    "TinyDIP.Props.C177_no_deadlock"
   ],
   "note": "The report step is total/100, counted from the first pixel, so with 200 or more pixels the last report can fall short of 1: with 250 pixels one after the other it is 249/250 (C177_complete_violation). For a colour picture bilateral_filter runs one filter per channel, at the same time, and each of them reports on its own from 0: the statement is about one of them. Not modelled: wrap-around of the counters, a callback that throws, the OpenMP version (which never calls back)."
  },
  {
   "property": "C178",
   "status": "partial",
   "theorems": [
    "TinyDIP.Props.C178_runs_partial",
    "TinyDIP.Props.C178_transform_partial",
    "TinyDIP.Props.C178_transform_violation",
    "TinyDIP.Props.C178_matches_partial",
    "TinyDIP.Props.C178_matches_orders",
    "TinyDIP.Props.C178_matches_violation"
   ],
   "note": "With unseq and par_unseq the calls on one thread may interleave, and these function objects lock a std::mutex: a thread can lock the mutex it already owns, which is undefined behaviour (C178_transform_violation, C178_matches_violation). The commands pass the words unseq and par_unseq on to these functions; the theorems about commands treat every policy as an order of the calls. A nested container is transformed in one step of the call that holds the lock of its parent."
  },
  {
   "property": "C179",
   "status": "partial",
   "theorems": [
    "TinyDIP.Props.C179_bound",
    "TinyDIP.Props.C179_sum_partial",
    "TinyDIP.Props.C179_sum_exact",
    "TinyDIP.Props.C179_sum_violation",
    "TinyDIP.Props.C179_mean_partial",
    "TinyDIP.Props.C179_mean_exact",
    "TinyDIP.Props.C179_mean_violation"
   ],
   "note": "The sum, and with it the mean, depends on the grouping (C179_sum_violation: 2^54 and 2^54+4 are both permitted for the pixels 2^54, 1, 1, 1), and the mean of three equal pixels k can be k+1 (C179_mean_violation). Numbers have unbounded exponents: no overflow, no underflow; no fused operations."
  },
  {
   "property": "C180",
   "status": "partial",
   "theorems": [
    "TinyDIP.Props.C180_conv2_partial",
    "TinyDIP.Props.C180_conv2_exact",
    "TinyDIP.Props.C180_conv2_same",
    "TinyDIP.Props.C180_commutative_violation"
   ],
   "note": "Swapping picture and kernel changes the order of the additions and with it the result (C180_commutative_violation). Unbounded exponents, no fused operations."
  },
  {
   "property": "C181",
   "status": "partial",
   "theorems": [
    "TinyDIP.Props.C181_multiply_partial",
    "TinyDIP.Props.C181_multiply_exact",
    "TinyDIP.Props.C181_transpose",
    "TinyDIP.Props.C181_identity",
    "TinyDIP.Props.C181_associative_violation"
   ],
   "note": "Products are not associative (C181_associative_violation). Unbounded exponents, no fused operations."
  },
  {
   "property": "C182",
   "status": "partial",
   "theorems": [
    "TinyDIP.Props.C182_distance_partial",
    "TinyDIP.Props.C182_symmetric",
    "TinyDIP.Props.C182_sequential",
    "TinyDIP.Props.C182_grouping_violation"
   ],
   "note": "With an execution policy two different results are permitted for the same descriptors (C182_grouping_violation). Zero exactly for equal lists holds as long as no difference underflows: exponents are unbounded in the model."
  },
  {
   "property": "C183",
   "status": "partial",
   "theorems": [
    "TinyDIP.Filter.C183_average_partial",
    "TinyDIP.Filter.C183_range_partial",
    "TinyDIP.Filter.C183_blur_partial",
    "TinyDIP.Filter.C183_constant_violation"
   ],
   "note": "A picture of one colour can become darker by one unit in the last place (C183_constant_violation: the pixel 7 becomes 7-2^-50). As in C105 the bell curve is centred on sample (n+1)/2. The computed bell curve is a parameter; unbounded exponents, no fused operations. A sigma so small that all samples underflow to zero divides zero by zero: outside this model."
  },
  {
   "property": "C184",
   "status": "partial",
   "theorems": [
    "TinyDIP.Filter.C184_integer_sigma",
    "TinyDIP.Filter.C184_black_violation",
    "TinyDIP.Filter.C184_difference_violation",
    "TinyDIP.Filter.C184_zero_violation",
    "TinyDIP.Filter.C184_overflow_violation"
   ],
   "note": "Violated: the samples of the bell curve are stored in integers (0 or 1) and divided by their sum as integers, so with more than one sample every weight is 0 and the result is black (C184_integer_sigma, C184_black_violation, for every picture and every integer sigma); difference_of_gaussian with integers is zero everywhere (C184_difference_violation); sigma 0 is an integer division by zero (C184_zero_violation). The model takes SigmaT = int (32 bits) and double pixels."
  },
  {
   "property": "C185",
   "status": "partial",
   "theorems": [
    "TinyDIP.Props.C185_sum",
    "TinyDIP.Props.C185_mean",
    "TinyDIP.Props.C185_mean_partial",
    "TinyDIP.Props.C185_mean_violation",
    "TinyDIP.Props.C185_mean_empty",
    "TinyDIP.Props.C185_conv2",
    "TinyDIP.Props.C185_conv2_violation",
    "TinyDIP.Props.C185_sum_int_partial",
    "TinyDIP.Props.C185_sum_int_iff",
    "TinyDIP.Props.C185_sum_int_violation",
    "TinyDIP.Props.C185_mean_int_partial",
    "TinyDIP.Props.C185_mean_int_violation"
   ],
   "note": "Violated: all three compute in the element type. For unsigned elements of n bits the results are exact modulo 2^n (C185_sum, C185_mean, C185_conv2): exact when the exact value fits (C185_mean_partial), but the mean of two pixels 200 is 72 (C185_mean_violation) and the 3x3 box sum of white is 247 (C185_conv2_violation). For int, whether the sum overflows depends on the grouping even if the total is an int (C185_sum_int_violation), and a negative sum is converted to size_t before the division: the mean of two pixels -2 is 9223372036854775806 (C185_mean_int_violation). conv2 of 16-bit elements is not covered (the promoted product may overflow int)."
  },
  {
   "property": "C186",
   "status": "partial",
   "theorems": [
    "TinyDIP.Props.C186_variables_partial",
    "TinyDIP.Props.C186_variables_violation"
   ],
   "note": "Violated: main creates the workspace before the container of libraries, so the variables are destroyed after the libraries are unloaded; the program ends well exactly if no variable left needs the code of a plugin (C186_variables_partial, C186_variables_violation). Which code destroys a value is a parameter: for values of types the program itself stores, the linker option of CMakeLists.txt 460 makes the plugins use the code of the program."
  },
  {
   "property": "C187",
   "status": "partial",
   "theorems": [
    "TinyDIP.Props.C187_extremes_partial",
    "TinyDIP.Props.C187_extremes_violation"
   ],
   "note": "Violated: when the first pixel is NaN both results are NaN, otherwise NaN is passed over (C187_extremes_violation, C187_extremes_partial). The loop of the usual library is modelled; the standard leaves NaN here undefined. minmax is not covered with NaN."
  },
  {
   "property": "C188",
   "status": "partial",
   "theorems": [
    "TinyDIP.Props.C188_normalize_partial",
    "TinyDIP.Props.C188_nan_first_violation",
    "TinyDIP.Props.C188_infinity_violation",
    "TinyDIP.Props.C188_constant_violation",
    "TinyDIP.Props.C188_overflow_violation"
   ],
   "note": "Violated: NaN in the first pixel, an infinity, a picture of one value and a range of 2^1024 or more give NaN (C188_nan_first_violation, C188_infinity_violation, C188_constant_violation, C188_overflow_violation). Proved for pictures of numbers otherwise (C188_normalize_partial)."
  },
  {
   "property": "C189",
   "status": "partial",
   "theorems": [
    "TinyDIP.Props.C189_find_partial",
    "TinyDIP.Props.C189_find_violation",
    "TinyDIP.Props.C189_bytes_partial",
    "TinyDIP.Props.C189_bytes_violation"
   ],
   "note": "Violated: NaN is never found, so it cannot be counted or replaced (C189_find_violation), and one pixel that is NaN, infinite or outside the bytes makes im2uint8 undefined (C189_bytes_violation)."
  },
  {
   "property": "C190",
   "status": "proved",
   "theorems": [
    "TinyDIP.Props.C190_commands",
    "TinyDIP.Props.C190_names",
    "TinyDIP.Props.C190_line",
    "TinyDIP.Props.C190_session"
   ],
   "note": "transform_container is C199, load_workspace is left out (C67); batch_add_zeros, help, load_plugins, save_workspace and test do not write to the workspace and are not modelled as commands. Lines that run into undefined behaviour are left out. C190_names says which commands are covered."
  },
  {
   "property": "C191",
   "status": "proved",
   "theorems": [
    "TinyDIP.Props.C191_commands",
    "TinyDIP.Props.C191_line",
    "TinyDIP.Props.C191_session"
   ],
   "note": "Same commands as C190 (save_workspace writes files and is not covered). Two words may be paths of one file; what saving at a path can change is a hypothesis. A save that throws is taken to leave the files as they were."
  },
  {
   "property": "C192",
   "status": "partial",
   "theorems": [
    "TinyDIP.Props.C192_bmp_partial",
    "TinyDIP.Props.C192_bmp_violation",
    "TinyDIP.Props.C192_double_partial",
    "TinyDIP.Props.C192_hsv_partial",
    "TinyDIP.Props.C192_pnm_partial",
    "TinyDIP.Props.C192_pnm_magic_violation",
    "TinyDIP.Props.C192_csv_partial"
   ],
   "note": "Violated as to the ideal: bmp_write, double_image::write, hsv_write, pnm::write and write_to_csv empty the old file first, so a program that stops leaves neither picture (C192_bmp_violation). pnm::write refuses an unknown magic number only after it emptied the file (C192_pnm_magic_violation). The file system is taken to keep the bytes in the order they were written and never to be full."
  },
  {
   "property": "C193",
   "status": "partial",
   "theorems": [
    "TinyDIP.Props.C193_bmp_partial",
    "TinyDIP.Props.C193_bmp_header_violation",
    "TinyDIP.Props.C193_bmp_violation"
   ],
   "note": "Violated: bmp_read does not look at the number of bytes fread returns. A file cut after 26 bytes is read without an error with white for what is missing (C193_bmp_violation); cut earlier the size fields are read from an array that was never filled (C193_bmp_header_violation)."
  },
  {
   "property": "C194",
   "status": "partial",
   "theorems": [
    "TinyDIP.Props.C194_double_partial",
    "TinyDIP.Props.C194_double_violation",
    "TinyDIP.Props.C194_hsv_partial",
    "TinyDIP.Props.C194_hsv_violation"
   ],
   "note": "Violated: double_image::read and hsv_read use samples that were never read when the file is too short (C194_double_violation, C194_hsv_violation)."
  },
  {
   "property": "C195",
   "status": "partial",
   "theorems": [
    "TinyDIP.Props.C195_ppm_partial",
    "TinyDIP.Props.C195_pgm_partial",
    "TinyDIP.Props.C195_pbm",
    "TinyDIP.Props.C195_ppm_violation"
   ],
   "note": "Violated for PPM and PGM: a cut inside the last number is not noticed (C195_ppm_violation). PBM files are proved without exception."
  },
  {
   "property": "C196",
   "status": "partial",
   "theorems": [
    "TinyDIP.Props.C196_integers_partial",
    "TinyDIP.Props.C196_violation",
    "TinyDIP.Props.C196_ragged_rows"
   ],
   "note": "Violated as to reporting: read_from_csv never notices a cut (C196_violation). Only integer elements; a cut file of doubles may also throw (a cell that is only a sign)."
  },
  {
   "property": "C197",
   "status": "partial",
   "theorems": [
    "TinyDIP.Props.C197_numbered_partial",
    "TinyDIP.Props.C197_long_violation",
    "TinyDIP.Props.C197_missing_picture"
   ],
   "note": "Violated for output paths of more than 94 characters: the name is built in an array of 100 characters and cut, so that with 99 and more all pictures are written to one file (C197_long_violation). The command batch_add_zeros does not call this function: it prints a line and changes nothing."
  },
  {
   "property": "C198",
   "status": "partial",
   "theorems": [
    "TinyDIP.Props.C198_save_partial",
    "TinyDIP.Props.C198_mixed_violation"
   ],
   "note": "The bundle is not replaced as a whole: with two or more savable variables the program can stop when the directory holds a mix of old and new variables (C198_mixed_violation)."
  },
  {
   "property": "C199",
   "status": "partial",
   "theorems": [
    "TinyDIP.Props.C199_session_partial",
    "TinyDIP.Props.C199_files",
    "TinyDIP.Props.C199_undefined",
    "TinyDIP.Props.C199_letter_violation"
   ],
   "note": "Violated for variables whose name is a word of the line without its first character: transform_container takes the first character off its second argument without looking at it, so that transform_container $c xd copy overwrites $d (C199_letter_violation). Variables with the names __tc_in_<n> and __tc_out_<n> are not protected (C66)."
  },
  {
   "property": "C200",
   "status": "partial",
   "theorems": [
    "TinyDIP.Props.C200_succeeds",
    "TinyDIP.Props.C200_bystanders",
    "TinyDIP.Props.C200_stops_partial",
    "TinyDIP.Props.C200_violation"
   ],
   "note": "A failed load is not undone: variables from files listed before the unreadable one are replaced, and which ones they are depends on the order of the directory (C200_violation)."
  },
  {
   "property": "C201",
   "status": "proved",
   "theorems": [
    "TinyDIP.Props.C201_round_trip"
   ],
   "note": "Proved for the arithmetic without overflow, underflow and fused operations. The bounds hold for each platform's long double (53, 64 or 113 bits)."
  },
  {
   "property": "C202",
   "status": "partial",
   "theorems": [
    "TinyDIP.Props.C202_different_files",
    "TinyDIP.Props.C202_same_content",
    "TinyDIP.Props.C202_same_file_partial",
    "TinyDIP.Props.C202_same_file_violation"
   ],
   "note": "Different files (BMP, doubles, HSV) and equal content in one file are proved in full. For different pictures of one size in the same BMP file, the file left is read as a picture in which each colour value comes from one of the two; that it is one of the two is false, see C202_same_file_violation: nothing locks the file and nothing is written to a temporary name. Pictures of different sizes in the same file are covered up to the bytes only by lemma same_end."
  },
  {
   "property": "C203",
   "status": "partial",
   "theorems": [
    "TinyDIP.Props.C203_unchanged",
    "TinyDIP.Props.C203_same_size_partial",
    "TinyDIP.Props.C203_size_violation",
    "TinyDIP.Props.C203_removed_violation"
   ],
   "note": "True when the pictures have the same size (the result is the one at the last opening) and when the file does not change. False otherwise: a picture of another size gives a picture with the width of the one and the height of the other (C203_size_violation), and a file that is removed gives a white or an empty picture without an error (C203_removed_violation). A file that changes while it is open once is not modelled."
  },
  {
   "property": "C204",
   "status": "partial",
   "theorems": [
    "TinyDIP.Filter.C204_window",
    "TinyDIP.Filter.C204_window_range",
    "TinyDIP.Filter.C204_spatial_partial",
    "TinyDIP.Filter.C204_spatial_violation",
    "TinyDIP.Filter.C204_range_partial",
    "TinyDIP.Filter.C204_white_violation"
   ],
   "note": "The window result and the upper bound are proved. The lower bound is false: the quotient is cut off, so a window of equal values can lose one, and for some kernels a white picture of any size becomes 254 everywhere (C204_white_violation). Kernels are taken as functions from double to double; std::pow(x, 2.0) is taken as the rounded square."
  },
  {
   "property": "C205",
   "status": "partial",
   "theorems": [
    "TinyDIP.Filter.C205_difference",
    "TinyDIP.Filter.C205_antisymmetric",
    "TinyDIP.Filter.C205_constant_partial"
   ],
   "note": "The difference, the change of sign and the zero for equal sigmas are proved. For a picture of one colour only a bound of the size of the roundings of the two filters is proved: the two filters round independently (C183_constant_violation shows one filter that does not keep a constant picture)."
  },
  {
   "property": "C206",
   "status": "partial",
   "theorems": [
    "TinyDIP.Props.C206_count_partial",
    "TinyDIP.Props.C206_empty_partial",
    "TinyDIP.Props.C206_empty_violation"
   ],
   "note": "Proved for pictures with at least one dimension. For the picture without a size count() is 1 and count(policy) is 0, set(0) is not rejected and refers to an element that does not exist, and at with a range of indices reads sizes that do not exist (C206_empty_violation); the other checked accesses are rejected."
  },
  {
   "property": "C207",
   "status": "partial",
   "theorems": [
    "TinyDIP.Props.C207_histogram_partial",
    "TinyDIP.Props.C207_image_partial",
    "TinyDIP.Props.C207_violation"
   ],
   "note": "Proved for histograms whose entries are whole multiples of a power of two (counts, or pictures with 2^j pixels). For other numbers of pixels the shares are rounded and the claim fails: with 2020 x 2050 pixels of value 254 and one of them 255 instead, the result is 255, above which there is no pixel, instead of 254 (C207_violation): the remaining weight ends at 2^-72 instead of 0 and the quotient of two rounding errors wins."
  },
  {
   "property": "C208",
   "status": "partial",
   "theorems": [
    "TinyDIP.Props.C208_shares",
    "TinyDIP.Props.C208_normalized_partial",
    "TinyDIP.Props.C208_normalized_violation",
    "TinyDIP.Props.C208_bins_partial",
    "TinyDIP.Props.C208_bins_violation"
   ],
   "note": "histogram_normalized adds the rounded share of one pixel again and again, so its shares drift: exact for 2^k pixels, otherwise within (1 + 2^-53)^(k+1) - 1 of k/N; six equal pixels give 1 - 2^-53 where normalize gives 1 (C208_normalized_violation). Bins are exact while max * bins < 2^53; elements of 64 bits are rounded first: of two bins over uint64_t, 2^63 - 1 is counted in the upper one (C208_bins_violation)."
  },
  {
   "property": "C209",
   "status": "proved",
   "theorems": [
    "TinyDIP.Props.C209_levels",
    "TinyDIP.Props.C209_image"
   ],
   "note": ""
  },
  {
   "property": "C210",
   "status": "partial",
   "theorems": [
    "TinyDIP.Props.C210_clang_msvc",
    "TinyDIP.Props.C210_gcc_partial",
    "TinyDIP.Props.C210_gcc_violation"
   ],
   "note": "clang and Visual C++: all names. gcc: all names without a semicolon; of other names (types inside function templates) only the part before the first semicolon is shown (C210_gcc_violation). The texts of the three compilers are taken from their documentation (Spec/TypeName)."
  },
  {
   "property": "C211",
   "status": "partial",
   "theorems": [
    "TinyDIP.Props.C211_levels_partial",
    "TinyDIP.Props.C211_one_violation",
    "TinyDIP.Props.C211_overflow_violation"
   ],
   "note": "Proved: the brightest channel is the rounded product, cut; the darkest is a number within 2^-42 of the product, cut. It can be one too small even for the factor 1: (3, 1, 1) becomes (3, 0, 0) (C211_one_violation). A product of 256 or more is undefined behaviour instead of being clipped (C211_overflow_violation)."
  },
  {
   "property": "C212",
   "status": "partial",
   "theorems": [
    "TinyDIP.Rnd.C212_shown",
    "TinyDIP.Rnd.C212_solution_partial",
    "TinyDIP.Rnd.C212_zero",
    "TinyDIP.Rnd.C212_solution_violation"
   ],
   "note": "Proved: the shown radius is right up to D0 / 2^48 for every radius, and for solutions in the inner half the returned radius is within D0 / 2^46 of the solution (C212_solution_partial). Near the largest radius the mapping is flat: for strength 9 there is a double radius with an error above 9 / 2^28 (C212_solution_violation), although the code announces maximum precision."
  },
  {
   "property": "C213",
   "status": "partial",
   "theorems": [
    "TinyDIP.Rnd.C213_level",
    "TinyDIP.Rnd.C213_grid",
    "TinyDIP.Rnd.C213_constant_partial",
    "TinyDIP.Rnd.C213_constant_violation"
   ],
   "note": "Proved: distance to the exact value and the pixel positions for every picture, and for a picture of one colour that the result is this colour or the next darker one (C213_constant_partial). It is not always this colour: white gives 254 at x = 1 + 525 / 2^21, y = 1 (C213_constant_violation), because the sum is cut and not rounded."
  },
  {
   "property": "C214",
   "status": "partial",
   "theorems": [
    "TinyDIP.Sp.C214_shape",
    "TinyDIP.Sp.C214_position_partial",
    "TinyDIP.Sp.C214_lost_pixel_violation",
    "TinyDIP.Sp.C214_first_pixel_violation"
   ],
   "note": "Proved for widths and correlation (C214_shape), and that no iteration brings a NaN into amplitude or position (C214_position_partial). Not true of the starting point: a first pixel that is NaN gives the amplitude NaN (C214_first_pixel_violation), and one pixel that is no number switches the iterations off (C214_lost_pixel_violation). std::max_element is modelled as a scan from the first pixel; the standard does not define it for NaN."
  },
  {
   "property": "C215",
   "status": "partial",
   "theorems": [
    "TinyDIP.Props.C215_bins_partial",
    "TinyDIP.Props.C215_default_violation",
    "TinyDIP.Props.C215_special_violation"
   ],
   "note": "Proved for numbers in a range that starts at zero (C215_bins_partial). Not true with the default range: its width overflows to infinity and every pixel is counted in the first bin (C215_default_violation). One infinite or NaN pixel makes the call undefined (C215_special_violation). Ranges that do not start at zero are wrong in exact arithmetic already (C33)."
  },
  {
   "property": "C216",
   "status": "partial",
   "theorems": [
    "TinyDIP.Props.C216_raw_partial",
    "TinyDIP.Props.C216_special_entry",
    "TinyDIP.Props.C216_robust_partial",
    "TinyDIP.Props.C216_ratio_violation"
   ],
   "note": "Proved for every ratio between -1 and 1 and for NaN (C216_raw_partial, C216_robust_partial, C216_special_entry). Not true for ratios above one: a descriptor without a usable distance is matched with size_t(-1) (C216_ratio_violation)."
  },
  {
   "property": "C217",
   "status": "partial",
   "theorems": [
    "TinyDIP.Props.C217_least",
    "TinyDIP.Props.C217_msac",
    "TinyDIP.Props.C217_ransac",
    "TinyDIP.Props.C217_most",
    "TinyDIP.Props.C217_nan_violation"
   ],
   "note": "Proved for the least cost with every scoring function (C217_least), for MSAC and NaN (C217_msac) and for the number of matches with RANSAC (C217_ransac, C217_most). Not true for RANSAC and NaN: a model of NaN counts as one that agrees with no match, and is returned when there is nothing better (C217_nan_violation)."
  },
  {
   "property": "C218",
   "status": "partial",
   "theorems": [
    "TinyDIP.Props.C218_throws",
    "TinyDIP.Props.C218_integers_partial",
    "TinyDIP.Props.C218_all",
    "TinyDIP.Props.C218_singular_violation"
   ],
   "note": "Proved for integer matrices with entries up to 65536: the empty matrix exactly for determinant zero, relative error of each entry at most 3/2^53 (C218_integers_partial); for all matrices: the decision when the determinant differs from the limit by more than the rounding error, and every entry as a cofactor over a common denominator (C218_all). Not true in general: a singular matrix of doubles is reported as inverted (C218_singular_violation). Exponents are unbounded: overflow is not modelled here."
  },
  {
   "property": "C219",
   "status": "partial",
   "theorems": [
    "TinyDIP.Props.C219_error",
    "TinyDIP.Props.C219_exact",
    "TinyDIP.Props.C219_throws",
    "TinyDIP.Props.C219_gram",
    "TinyDIP.Props.C219_assoc_violation"
   ],
   "note": "Error for all sizes (C219_error), exactness for integers (C219_exact), sizes (C219_throws), symmetry (C219_gram). Not associative as the exact product of C28 is (C219_assoc_violation). Exponents are unbounded: overflow is not modelled here."
  },
  {
   "property": "C220",
   "status": "proved",
   "theorems": [
    "TinyDIP.Props.C220_entries",
    "TinyDIP.Props.C220_exact"
   ],
   "note": "Error for all sizes up to 2^53 (C220_entries); exact for ratios that are powers of two (C220_exact). Exponents are unbounded; sizes of zero are excluded."
  },
  {
   "property": "C221",
   "status": "partial",
   "theorems": [
    "TinyDIP.Props.C221_warp_partial",
    "TinyDIP.Props.C221_nan_violation",
    "TinyDIP.Props.C221_overflow_violation"
   ],
   "note": "Proved for entries up to 2^80, where the warp never fails and every pixel is the sample at the rounded point of the inverse up to rounding (C221_warp_partial). Not true for NaN, which is inverted to NaN and gives a blank picture (C221_nan_violation), nor for large entries, whose determinant overflows and whose inverse is reported as the zero matrix (C221_overflow_violation)."
  },
  {
   "property": "C222",
   "status": "proved",
   "theorems": [
    "TinyDIP.Props.C222_refine",
    "TinyDIP.Props.C222_empty",
    "TinyDIP.Props.C222_nan"
   ],
   "note": "Proved for every solver, model and threshold (C222_refine, C222_nan, C222_empty)."
  },
  {
   "property": "C223",
   "status": "proved",
   "theorems": [
    "TinyDIP.Props.C223_equations",
    "TinyDIP.Props.C223_few",
    "TinyDIP.Props.C223_nine",
    "TinyDIP.Props.C223_result",
    "TinyDIP.Props.C223_nan"
   ],
   "note": "Proved for every solver (svd_solve_ah_zero is a parameter): C223_equations, C223_result, C223_few, C223_nine, C223_nan."
  },
  {
   "property": "C224",
   "status": "partial",
   "theorems": [
    "TinyDIP.Props.C224_layout",
    "TinyDIP.Props.C224_lossless_partial",
    "TinyDIP.Props.C224_rows_violation"
   ],
   "note": "The layout is proved for every matrix (C224_layout); matrices with at least one row that print the same text are equal (C224_lossless_partial). Without rows nothing is printed and the number of columns is lost (C224_rows_violation)."
  },
  {
   "property": "C225",
   "status": "partial",
   "theorems": [
    "TinyDIP.Props.C225_bounds_partial",
    "TinyDIP.Props.C225_infinity_violation",
    "TinyDIP.Props.C225_nan_violation",
    "TinyDIP.Props.C225_empty",
    "TinyDIP.Props.C225_shift",
    "TinyDIP.Props.C225_feather_partial",
    "TinyDIP.Props.C225_left"
   ],
   "note": "Proved when no projected corner is infinite: the bounds are the least and greatest coordinates, and corners that are NaN are ignored (C225_bounds_partial). A corner at infinity makes the call undefined (C225_infinity_violation); with a NaN in the homography the result is the first picture alone and no failure is reported (C225_nan_violation). A blended 8-bit value lies between the two, or one below, and is the first picture's in its first column (C225_feather_partial, C225_left); the moved homography has the third row of the inverse and two roundings elsewhere (C225_shift). Missing: the pixels of the warp for finite homographies in double precision."
  },
  {
   "property": "C226",
   "status": "partial",
   "theorems": [
    "TinyDIP.Props.C226_plus_partial",
    "TinyDIP.Props.C226_divides_partial",
    "TinyDIP.Props.C226_length_violation",
    "TinyDIP.Props.C226_plus_length_violation"
   ],
   "note": "Proved for vectors at least as long as the first (C226_plus_partial, C226_divides_partial). The lengths are not compared in a release build: a shorter vector is read past its end (C226_length_violation, C226_plus_length_violation)."
  },
  {
   "property": "C227",
   "status": "partial",
   "theorems": [
    "TinyDIP.Props.C227_plane",
    "TinyDIP.Props.C227_line_violation",
    "TinyDIP.Props.C227_complex",
    "TinyDIP.Props.C227_volume"
   ],
   "note": "Proved in exact arithmetic for normalDistribution2D (C227_plane), for the drawn surface (C227_volume) and for complex arguments (C227_complex). False for normalDistribution1D, whose integral is the standard deviation times the square root of 2 pi (C227_line_violation)."
  },
  {
   "property": "C228",
   "status": "partial",
   "theorems": [
    "TinyDIP.Props.C228_depth",
    "TinyDIP.Props.C228_target",
    "TinyDIP.Props.C228_one_partial",
    "TinyDIP.Props.C228_two_violation",
    "TinyDIP.Props.C228_three_violation",
    "TinyDIP.Props.C228_unwrap_partial",
    "TinyDIP.Props.C228_array_violation"
   ],
   "note": "Proved for the depth (C228_depth), the depth with a target type (C228_target) and functions of one argument (C228_one_partial); the type found inside for types without arrays (C228_unwrap_partial). False for arrays (C228_array_violation), for two arguments, where the first type is taken for a target type (C228_two_violation), and for more (C228_three_violation)."
  },
  {
   "property": "C229",
   "status": "partial",
   "theorems": [
    "TinyDIP.Props.C229_result_partial",
    "TinyDIP.Props.C229_several_partial",
    "TinyDIP.Props.C229_array_partial",
    "TinyDIP.Props.C229_mixed_violation"
   ],
   "note": "Proved for types without arrays and functions of one argument (C229_result_partial) and of several (C229_several_partial), and for nested arrays (C229_array_partial). False for arrays inside other containers and the other way round (C229_mixed_violation)."
  },
  {
   "property": "C230",
   "status": "partial",
   "theorems": [
    "TinyDIP.Props.C230_whole_partial",
    "TinyDIP.Props.C230_large",
    "TinyDIP.Props.C230_infinity_violation"
   ],
   "note": "Proved for finite numbers, NaN and integers (C230_whole_partial), with the consequence for large doubles (C230_large). The infinities pass as whole numbers (C230_infinity_violation)."
  },
  {
   "property": "C231",
   "status": "partial",
   "theorems": [
    "TinyDIP.Props.C231_pick_partial",
    "TinyDIP.Props.C231_zero_violation"
   ],
   "note": "Proved for indices from one on (C231_pick_partial). The index zero returns the first argument, although there is no type with this index (C231_zero_violation)."
  }
 ]
}