{
 "claims": [
  {
   "property": "C01",
   "status": "proved",
   "theorems": [
    "HyperCV.C01_bil2bsq",
    "HyperCV.C01_bil2bip",
    "HyperCV.C01_bsq2bil",
    "HyperCV.C01_bsq2bip",
    "HyperCV.C01_bip2bsq",
    "HyperCV.C01_bip2bil"
   ],
   "note": "Spec: Converts in Verif/Spec/Cube.lean; byte sizes must fit in int."
  },
  {
   "property": "C02",
   "status": "proved",
   "theorems": [
    "HyperCV.C02_roundtrip",
    "HyperCV.C02_compose"
   ],
   "note": ""
  },
  {
   "property": "C03",
   "status": "proved",
   "theorems": [
    "HyperCV.C03_convert2bsq",
    "HyperCV.C03_convert2bil",
    "HyperCV.C03_convert2bip"
   ],
   "note": ""
  },
  {
   "property": "C04",
   "status": "partial",
   "theorems": [
    "HyperCV.C04_copy_returns_null",
    "HyperCV.C04_copy_null_ub",
    "HyperCV.C04_refuted"
   ],
   "note": "The property is false of the code: the NULL test is inverted. The theorems prove the exact (wrong) behaviour for every input."
  },
  {
   "property": "C05",
   "status": "proved",
   "theorems": [
    "HyperCV.C05_copy_to",
    "HyperCV.C05_copy_to_mismatch"
   ],
   "note": ""
  },
  {
   "property": "C06",
   "status": "proved",
   "theorems": [
    "HyperCV.C06_create",
    "HyperCV.C06_create_exit"
   ],
   "note": ""
  },
  {
   "property": "C07",
   "status": "proved",
   "theorems": [
    "HyperCV.C07_cube_regions"
   ],
   "note": ""
  },
  {
   "property": "C08",
   "status": "partial",
   "theorems": [
    "HyperCV.C08_sizes_partial",
    "HyperCV.C08_complex_types_fail",
    "HyperCV.C08_complex_cube_ub"
   ],
   "note": "False for the documented complex types 6 and 9 (element size -1); proved for the other nine."
  },
  {
   "property": "C09",
   "status": "partial",
   "theorems": [
    "HyperCV.C09_overflow_ub",
    "HyperCV.C09_wavelength_wraps",
    "HyperCV.C09_size_partial"
   ],
   "note": "False of the code: int overflow (UB) above INT_MAX and truncated wavelength size; proved when both sizes fit in int."
  },
  {
   "property": "C10",
   "status": "partial",
   "theorems": [
    "HyperCV.C10_create_image_partial",
    "HyperCV.C10_multichannel",
    "HyperCV.C10_refuted"
   ],
   "note": "Proved for one channel; with several channels only the first rows*cols*elem bytes are zeroed (refuted with a witness, exact contents given by C10_multichannel)."
  },
  {
   "property": "C11",
   "status": "partial",
   "theorems": [
    "HyperCV.C11_create_delete_partial",
    "HyperCV.C11_bad_address",
    "HyperCV.C11_external_partial",
    "HyperCV.C11_external_leak",
    "HyperCV.C11_create_delete_external"
   ],
   "note": "Create+delete restores the heap unless the header address is 48 mod 64, where an interior pointer is freed; external pixels are freed only when they lie more than 64 above the header, otherwise leaked."
  },
  {
   "property": "C12",
   "status": "partial",
   "theorems": [
    "HyperCV.C12_fields",
    "HyperCV.C12_without_wavelengths",
    "HyperCV.C12_wavelengths_partial",
    "HyperCV.C12_refuted"
   ],
   "note": "The fields round-trip for all int values and all tags; without wavelengths the whole read-back is proved. With wavelengths they are read back bit by bit (multiples of 1e-6 or >= 16, below 1e10) if a zero byte happens to lie behind the text in an uninitialised buffer; refuted otherwise: the reader takes strlen of an unterminated buffer and runs over its end."
  },
  {
   "property": "C13",
   "status": "partial",
   "theorems": [
    "HyperCV.C13_ignored_line_partial",
    "HyperCV.C13_standard_keywords_partial",
    "HyperCV.C13_any_position_partial",
    "HyperCV.C13_standard_keywords_any_position_partial",
    "HyperCV.C13_refuted"
   ],
   "note": "Every line whose keyword is not prefix-related to samples/lines/bands/data/interleave can be added at every position outside the braces of the wavelengths, also behind them, without any effect, in particular the lines of 41 ENVI keywords with any value. Refuted for 'data ignore value', whose value replaces the data type."
  },
  {
   "property": "C14",
   "status": "partial",
   "theorems": [
    "HyperCV.C14_save_load_partial",
    "HyperCV.C14_refuted"
   ],
   "note": "Save and reload is the identity for every cube whose wavelengths six decimals determine, if the reader finds a zero byte behind the wavelengths in uninitialised memory; otherwise it runs over the end of the buffer (C14_refuted, for every cube)."
  },
  {
   "property": "C15",
   "status": "proved",
   "theorems": [
    "HyperCV.C15_tag_compare",
    "HyperCV.C15_prefix"
   ],
   "note": ""
  },
  {
   "property": "C16",
   "status": "partial",
   "theorems": [
    "HyperCV.C16_range_partial",
    "HyperCV.C16_empty_refused",
    "HyperCV.C16_refuted_oob",
    "HyperCV.C16_refuted_silent",
    "HyperCV.C16_refuted"
   ],
   "note": "In-range extraction proved in full for the three orders; the rejection clause is false (out-of-bounds read, or silently wrong elements)."
  },
  {
   "property": "C17",
   "status": "partial",
   "theorems": [
    "HyperCV.C17_extract",
    "HyperCV.C17_insert_partial",
    "HyperCV.C17_extract_insert_partial",
    "HyperCV.C17_insert_extract_partial",
    "HyperCV.C17_insert_wide",
    "HyperCV.C17_refuted",
    "HyperCV.C17_extract_bad_band"
   ],
   "note": "Extraction proved for every type; insertion and both round trips only for one-byte elements, insertion is false for wider elements (C17_insert_wide, C17_refuted)."
  },
  {
   "property": "C18",
   "status": "proved",
   "theorems": [
    "HyperCV.C18_reshape",
    "HyperCV.C18_reshape_refused"
   ],
   "note": "Sizes fit in int."
  },
  {
   "property": "C19",
   "status": "partial",
   "theorems": [
    "HyperCV.C19_transpose_partial",
    "HyperCV.C19_involution_partial",
    "HyperCV.C19_refuted"
   ],
   "note": "Proved for one-channel images of every type; false for several channels (witness)."
  },
  {
   "property": "C20",
   "status": "partial",
   "theorems": [
    "HyperCV.C20_flip_single",
    "HyperCV.C20_flip_all_partial",
    "HyperCV.C20_flip_all_bad",
    "HyperCV.C20_involution",
    "HyperCV.C20_involution_all_partial",
    "HyperCV.C20_compose"
   ],
   "note": "Codes 1 and 0 in full; code -1 except when the temporary image is placed at an address 48 mod 64, where deleting it is an invalid free (C20_flip_all_bad)."
  },
  {
   "property": "C21",
   "status": "proved",
   "theorems": [
    "HyperCV.C21_border",
    "HyperCV.C21_fuel",
    "HyperCV.C21_inside",
    "HyperCV.C21_refused",
    "HyperCV.C21_empty_source",
    "HyperCV.C21_constant_outside",
    "HyperCV.C21_intmin"
   ],
   "note": "For every length >= 1 and every int index except INT_MIN (WRAP: unless p - len overflows). len = 0, CONSTANT with len = 1 and INT_MIN are shown to misbehave."
  },
  {
   "property": "C22",
   "status": "partial",
   "theorems": [
    "HyperCV.C22_pad_partial",
    "HyperCV.C22_interior",
    "HyperCV.C22_refused",
    "HyperCV.C22_refuted"
   ],
   "note": "Proved for byte images of every size, margin and border type; refuted for elements of more than one byte (only one byte per element is copied)."
  },
  {
   "property": "C23",
   "status": "proved",
   "theorems": [
    "HyperCV.C23_threshold"
   ],
   "note": ""
  },
  {
   "property": "C24",
   "status": "proved",
   "theorems": [
    "HyperCV.C24_binary_complement",
    "HyperCV.C24_tozero_sum",
    "HyperCV.C24_idempotent",
    "HyperCV.C24_trunc_monotone"
   ],
   "note": ""
  },
  {
   "property": "C25",
   "status": "partial",
   "theorems": [
    "HyperCV.C25_otsu_out_of_bounds",
    "HyperCV.C25_otsu_refused"
   ],
   "note": "False: proved that every call on an accepted image reads out of bounds."
  },
  {
   "property": "C26",
   "status": "proved",
   "theorems": [
    "HyperCV.C26_widen",
    "HyperCV.C26_widen_ushort",
    "HyperCV.C26_refused"
   ],
   "note": "byte cubes to short/int/float/ushort, and ushort cubes to float; wrong type refused"
  },
  {
   "property": "C27",
   "status": "partial",
   "theorems": [
    "HyperCV.C27_narrow_partial",
    "HyperCV.C27_refuted",
    "HyperCV.C27_image_partial",
    "HyperCV.C27_image_refuted"
   ],
   "note": "False as stated: C27_refuted and C27_image_refuted give a witness for each conversion (no or wrong saturation). The partial theorems prove rounding and saturation on the stated domains."
  },
  {
   "property": "C28",
   "status": "proved",
   "theorems": [
    "HyperCV.C28_roundtrip"
   ],
   "note": "both round trips, any size and layout"
  },
  {
   "property": "C29",
   "status": "proved",
   "theorems": [
    "HyperCV.C29_sequence",
    "HyperCV.C29_no_leak"
   ],
   "note": "refinement of the byte-level macros to lists over all legal histories; total size bounded so that size_t does not wrap"
  },
  {
   "property": "C30",
   "status": "proved",
   "theorems": [
    "HyperCV.C30_growth"
   ],
   "note": "allocations are counted by the number of fresh heap handles"
  },
  {
   "property": "C31",
   "status": "proved",
   "theorems": [
    "HyperCV.C31_roundtrip",
    "HyperCV.C31_roundtrip_gray"
   ],
   "note": "All sizes with 24*C and the file size within int; any memory contents at read time."
  },
  {
   "property": "C32",
   "status": "partial",
   "theorems": [
    "HyperCV.C32_even_partial",
    "HyperCV.C32_gray",
    "HyperCV.C32_source_after_partial",
    "HyperCV.C32_refuted_source",
    "HyperCV.C32_refuted_order"
   ],
   "note": "False of the code: the source of a 3-channel write is modified (rows and channels exchanged in place) and the middle row of an odd height is written RGB. Proved: the file format for even heights and for all 1-channel images (whose source is preserved)."
  },
  {
   "property": "C33",
   "status": "partial",
   "theorems": [
    "HyperCV.C33_integral_partial",
    "HyperCV.C33_rectangle",
    "HyperCV.C33_refuted",
    "HyperCV.C33_other_images"
   ],
   "note": "Proved for every image of at most 4194304 pixels: the exact value at every position, and the four-corner difference for every rectangle not touching row 0 or column 0. The first half as stated is refuted: row 0 and column 0 are copied instead of summed, and C33_refuted characterises exactly when the value is right."
  },
  {
   "property": "C34",
   "status": "proved",
   "theorems": [
    "HyperCV.C34_gaussian",
    "HyperCV.C34_constant",
    "HyperCV.C34_range",
    "HyperCV.C34_weights_sum",
    "HyperCV.C34_kernel",
    "HyperCV.C34_other_channels"
   ],
   "note": "For every image size with R*C*ch*4 <= 2147483551; the destination may be the source. The C library exp is a parameter and is never called for these kernels."
  },
  {
   "property": "C35",
   "status": "partial",
   "theorems": [
    "HyperCV.C35_filter2D",
    "HyperCV.C35_exact",
    "HyperCV.C35_correlation_partial",
    "HyperCV.C35_refuted_previous",
    "HyperCV.C35_refuted_bytes",
    "HyperCV.C35_error_partial"
   ],
   "note": "Exact output for all kernels, contents and the four extensions (1 or 3 channels): the float correlation accumulated on top of the old destination. Equals the correlation for a zeroed float destination when arithmetic is exact. Refuted: any non-zero previous value makes the result wrong; a byte destination is overrun. For arbitrary finite kernels and previous values: error at most (taps+1)/2^23 times the sum of the magnitudes of the terms."
  },
  {
   "property": "C36",
   "status": "partial",
   "theorems": [
    "HyperCV.C36_laplacian",
    "HyperCV.C36_laplacian_constant_partial",
    "HyperCV.C36_sobel",
    "HyperCV.C36_sobel_constant",
    "HyperCV.C36_refuted_channels",
    "HyperCV.C36_refuted_constant_border"
   ],
   "note": "Proved for one-channel images of every size and the four extensions: exact output of both operators; constant images become black (Sobel: exactly for thresholds >= 0, otherwise white). Refuted: Laplacian with several channels leaves most elements untouched; BORDER_CONSTANT on a one-row image reads out of bounds."
  },
  {
   "property": "C37",
   "status": "partial",
   "theorems": [
    "HyperCV.C37_corrosion",
    "HyperCV.C37_expend",
    "HyperCV.C37_erosion_partial",
    "HyperCV.C37_dilation_partial",
    "HyperCV.C37_refuted_erosion_border",
    "HyperCV.C37_refuted_dilation",
    "HyperCV.C37_refuted_tall",
    "HyperCV.C37_refuted_wide",
    "HyperCV.C37_too_large"
   ],
   "note": "Exact output on square and one-row images for every element. Erosion is right for interior pixels and shrinks; dilation grows the foreground but by the wrong pixels. Refuted: erosion at the border, dilation of an empty image, images taller than wide (out of bounds), images wider than tall (last pixel never written)."
  },
  {
   "property": "C38",
   "status": "partial",
   "theorems": [
    "HyperCV.C38_open_is_expend",
    "HyperCV.C38_refuted_open",
    "HyperCV.C38_refuted_close"
   ],
   "note": "Exact: for every image shape and positive iteration count open equals expend of the source and close equals corrosion of the source. Both halves of the property are refuted; nothing of the positive statement remains beyond this characterisation."
  },
  {
   "property": "C39",
   "status": "proved",
   "theorems": [
    "HyperCV.C39_sort"
   ],
   "note": "All lengths up to 2^31-1 and all arrays of floats without NaN; infinities and signed zeros included."
  },
  {
   "property": "C40",
   "status": "partial",
   "theorems": [
    "HyperCV.C40_factorial_partial",
    "HyperCV.C40_negative",
    "HyperCV.C40_refuted",
    "HyperCV.C40_overflow"
   ],
   "note": "False of the code at n = 10: the table holds 11!. Proved for every other n in 0..20; negative n give -1; every n >= 21 overflows long."
  },
  {
   "property": "C41",
   "status": "partial",
   "theorems": [
    "HyperCV.C41_char_short_partial",
    "HyperCV.C41_unsigned_partial",
    "HyperCV.C41_zeroed",
    "HyperCV.C41_int_partial",
    "HyperCV.C41_ushort_partial",
    "HyperCV.C41_float_partial",
    "HyperCV.C41_refuted",
    "HyperCV.C41_refuted_ushort",
    "HyperCV.C41_float_error_partial",
    "HyperCV.C41_double_error_partial"
   ],
   "note": "The routines accumulate into z, so the result is the product exactly when z was zero (proved as an iff); the unsigned short routine has signed overflow for large products. Proved: z' = z + x*y in the arithmetic of each type, for all sizes; float and double when intermediate values are representable. For arbitrary finite float and double matrices an error bound is proved ((k+1)/2^23 resp. (k+1)/2^52 times the sum of magnitudes)."
  },
  {
   "property": "C42",
   "status": "proved",
   "theorems": [
    "HyperCV.C42_transpose",
    "HyperCV.C42_involution"
   ],
   "note": "All eight routines, all sizes."
  },
  {
   "property": "C43",
   "status": "partial",
   "theorems": [
    "HyperCV.C43_refines",
    "HyperCV.C43_exact_partial",
    "HyperCV.C43_float_partial",
    "HyperCV.C43_refuted"
   ],
   "note": "Proved: the C function computes exactly the Gauss-Jordan elimination gInvert in float arithmetic (all sizes), and gInvert in exact arithmetic over any field yields R*A = I whenever A has a left inverse; for floats the result is exact when all intermediate values are representable. Refuted part: failure is not signalled for singular matrices. Missing: rounding error bounds."
  },
  {
   "property": "C44",
   "status": "partial",
   "theorems": [
    "HyperCV.C44_size_partial",
    "HyperCV.C44_size_large_partial",
    "HyperCV.C44_refuted",
    "HyperCV.C44_refuted_last",
    "HyperCV.C44_out_of_range"
   ],
   "note": "The table lacks every multiple of 3^15, so the claim is false from n = 14171761 on for such sizes; proved in full for n <= 14171760, with exponent of 3 at most 14 up to the last entry, and -1 outside. For n equal to the last entry the code returns -1."
  },
  {
   "property": "C45",
   "status": "proved",
   "theorems": [
    "HyperCV.C45_gray2rgb",
    "HyperCV.C45_rgb2gray",
    "HyperCV.C45_gray_rgb_gray",
    "HyperCV.C45_weighted_darkens",
    "HyperCV.C45_bgr2rgb",
    "HyperCV.C45_bgr2rgb_involution",
    "HyperCV.C45_bgr2rgb_in_place"
   ],
   "note": "All sizes and contents with rows*cols*3 within int. The float/double arithmetic of the grey conversions is modelled exactly (IEEE rounding); sm_bgr2rgb needs separate source and destination (in place it loses a channel, C45_bgr2rgb_in_place)."
  },
  {
   "property": "C46",
   "status": "proved",
   "theorems": [
    "HyperCV.C46_draw_point",
    "HyperCV.C46_refuted_overflow",
    "HyperCV.C46_in_place"
   ],
   "note": "Exact output for every list of points whose squares have int-representable coordinates. C46_refuted_overflow shows the precondition is needed (the clipping test overflows at column INT_MAX); C46_in_place: drawing onto the source itself is undefined (memcpy overlap)."
  },
  {
   "property": "C47",
   "status": "partial",
   "theorems": [
    "HyperCV.C47_draw_line",
    "HyperCV.C47_diagonal_partial",
    "HyperCV.C47_refuted_beyond",
    "HyperCV.C47_refuted_end_point",
    "HyperCV.C47_refuted_horizontal",
    "HyperCV.C47_refuted_grey",
    "HyperCV.C47_any_slope",
    "HyperCV.C47_refuted_end_point_any",
    "HyperCV.C47_first_point_partial"
   ],
   "note": "False in general: horizontal lines are undefined behaviour, grey images are never drawn on, the slope is inverted so that every non-diagonal line misses its second end point (C47_refuted_end_point_any), and lines run across the whole image. Proved: exact output for integral slopes, output up to rounding for every slope and coordinates up to 8192; diagonal segments in 3-channel images and the first end point are drawn."
  },
  {
   "property": "C48",
   "status": "partial",
   "theorems": [
    "HyperCV.C48_table",
    "HyperCV.C48_overflow",
    "HyperCV.C48_darkest_partial",
    "HyperCV.C48_refuted_black",
    "HyperCV.C48_refuted_brightest",
    "HyperCV.C48_refuted_order",
    "HyperCV.C48_refuted_large",
    "HyperCV.C48_refuted_single"
   ],
   "note": "False in general: the running sum is scaled at every level and level 0 is not scaled, so the brightest level is not 255, the mapping is not monotone, large dark images and single pixels overflow. Proved: exact output and exact overflow condition for every image; level 1 and the darkest non-zero level are mapped correctly."
  },
  {
   "property": "C49",
   "status": "partial",
   "theorems": [
    "HyperCV.C49_returns_partial",
    "HyperCV.C49_refuted"
   ],
   "note": "Mean, variance and contrast always return. Refuted for the grey-level statistics and the entropy, which exit for every image because they compare sizeof(pointer) with 256. The blurs are covered by C62."
  },
  {
   "property": "C50",
   "status": "partial",
   "theorems": [
    "HyperCV.C50_result_partial",
    "HyperCV.C50_rounds",
    "HyperCV.C50_one_centre_partial",
    "HyperCV.C50_large_threshold_partial",
    "HyperCV.C50_refuted_never",
    "HyperCV.C50_refuted_stable"
   ],
   "note": "If it returns, the centres lie inside the image and are the means of the pixels nearest to the centres of the previous round; exact stopping rule (C50_rounds); returns for one centre with threshold >= 0 and for thresholds >= max(rows,cols)-1. Refuted: never returns for thresholds <= -min(rows,cols); the returned centres need not be the means of their own pixels because leftward and upward moves are ignored. Missing: termination for other thresholds >= 0 with several centres."
  },
  {
   "property": "C51",
   "status": "proved",
   "theorems": [
    "HyperCV.C51_norm",
    "HyperCV.C51_distance",
    "HyperCV.C51_plane"
   ],
   "note": "Over the real numbers (no rounding)."
  },
  {
   "property": "C52",
   "status": "partial",
   "theorems": [
    "HyperCV.C52_refuted_default",
    "HyperCV.C52_refuted_copy",
    "HyperCV.C52_refuted_hmread",
    "HyperCV.C52_refuted_constructor",
    "HyperCV.C52_refuted_open",
    "HyperCV.C52_constructor_partial",
    "HyperCV.C52_conversions_partial",
    "HyperCV.C52_given_partial"
   ],
   "note": "Refuted: the default constructor, copy and hmread end the program for all inputs, opening ends it for every cube, and the constructor with arguments does so unless uninitialised storage happens to pass the tests. If it does, the constructor and the six conversions are proved correct."
  },
  {
   "property": "C53",
   "status": "partial",
   "theorems": [
    "HyperCV.C53_same_order_returns_null",
    "HyperCV.C53_refuted"
   ],
   "note": "The property is false of the code: NULL is returned for every such cube."
  },
  {
   "property": "C54",
   "status": "proved",
   "theorems": [
    "HyperCV.C54_image_copy",
    "HyperCV.C54_null"
   ],
   "note": "All element types, channel counts and heap contents."
  },
  {
   "property": "C55",
   "status": "proved",
   "theorems": [
    "HyperCV.C55_saturate"
   ],
   "note": ""
  },
  {
   "property": "C56",
   "status": "partial",
   "theorems": [
    "HyperCV.C56_pop_null_partial",
    "HyperCV.C56_refuted"
   ],
   "note": "False as stated: after push, pop, pop the size is 2^64-1 (C56_refuted). True for NULL."
  },
  {
   "property": "C57",
   "status": "partial",
   "theorems": [
    "HyperCV.C57_binary2rgb_partial",
    "HyperCV.C57_refuted"
   ],
   "note": "True for foreground value 1; false for 255 (255*255 mod 256 = 1)."
  },
  {
   "property": "C58",
   "status": "partial",
   "theorems": [
    "HyperCV.C58_refuted"
   ],
   "note": "False: for every image and accepted code the function ends without a return value."
  },
  {
   "property": "C59",
   "status": "partial",
   "theorems": [
    "HyperCV.C59_write_partial",
    "HyperCV.C59_refuted"
   ],
   "note": "False for 1-channel images: the temporary colour image is leaked. Proved for 3-channel images."
  },
  {
   "property": "C60",
   "status": "partial",
   "theorems": [
    "HyperCV.C60_read24_partial",
    "HyperCV.C60_refuted_odd",
    "HyperCV.C60_refuted_8bit"
   ],
   "note": "False: odd heights exchange red and blue in the middle row, 8-bit files are read out of bounds. Proved for 24-bit files with an even number of rows."
  },
  {
   "property": "C61",
   "status": "partial",
   "theorems": [
    "HyperCV.C61_unsigned_partial",
    "HyperCV.C61_signed_partial",
    "HyperCV.C61_refuted",
    "HyperCV.C61_empty",
    "HyperCV.C61_error_partial",
    "HyperCV.C61_float",
    "HyperCV.C61_double"
   ],
   "note": "Exact up to one rounding when elements and partial sums stay within 2^24; false in general: the float accumulator absorbs small elements (every array 2^24,1,1,... of any length). For every content: error at most (n+3)/2^23 times the mean magnitude (integers, n up to 2^23), and similar bounds for float and double arrays."
  },
  {
   "property": "C62",
   "status": "proved",
   "theorems": [
    "HyperCV.C62_blur_never_returns"
   ],
   "note": "Both assertions are inverted."
  },
  {
   "property": "C63",
   "status": "partial",
   "theorems": [
    "HyperCV.C63_create",
    "HyperCV.C63_invalid",
    "HyperCV.C63_delete_partial",
    "HyperCV.C63_refuted_delete"
   ],
   "note": "Creation proved; deletion leaks the entries."
  },
  {
   "property": "C64",
   "status": "partial",
   "theorems": [
    "HyperCV.C64_mean",
    "HyperCV.C64_constant",
    "HyperCV.C64_refuted_saturates",
    "HyperCV.C64_refuted_double",
    "HyperCV.C64_refuted_negative",
    "HyperCV.C64_mean_error",
    "HyperCV.C64_variance_error"
   ],
   "note": "Mean within relative error 2^-22 when the samples are non-negative integers summing to at most 2^24; constant images give the exact mean and variance 0. Refuted: the sum saturates at 2^24 (8192x8192 image of ones has mean 1/4), double images give 0, negative samples are read as unsigned. For every integer or float image of up to 2^22 samples of magnitude up to 2^48: error bounds for the mean and the variance."
  },
  {
   "property": "C65",
   "status": "partial",
   "theorems": [
    "HyperCV.C65_contrast",
    "HyperCV.C65_constant",
    "HyperCV.C65_colour",
    "HyperCV.C65_refuted_single",
    "HyperCV.C65_error",
    "HyperCV.C65_colour_error"
   ],
   "note": "Mean squared neighbour difference within relative error 2^-24 when the sum is at most 2^24, for grey and colour images of 2 to 2^22 pixels. Refuted: a single pixel gives NaN; a colour image leaks its grey version (part of C65_colour). For every grey or colour image of up to 2^20 pixels: relative error at most (R*C+1)/2^21."
  },
  {
   "property": "C66",
   "status": "proved",
   "theorems": [
    "HyperCV.C66_separable",
    "HyperCV.C66_negative",
    "HyperCV.C66_error"
   ],
   "note": "Exact float semantics for all kernels; sums that are NaN (only from infinite or NaN weights or overflowing sums) are not described. For finite kernels: error bound against the exact limited sums."
  },
  {
   "property": "C67",
   "status": "partial",
   "theorems": [
    "HyperCV.C67_read_with_size_partial",
    "HyperCV.C67_refuted"
   ],
   "note": "Geometry, type, order and file bytes proved for all arguments, with the exact contents of everything else. Refuted: the wavelengths (and elements behind the end of a short file) are uninitialised memory."
  },
  {
   "property": "C68",
   "status": "partial",
   "theorems": [
    "HyperCV.C68_convertTo",
    "HyperCV.C68_there_and_back",
    "HyperCV.C68_range_partial"
   ],
   "note": "convertTo proved for all cubes and orders, and there-and-back is the identity on the memory. range needs storage of the result that passes the constructor's tests (see C52_refuted_constructor)."
  },
  {
   "property": "C69",
   "status": "partial",
   "theorems": [
    "HyperCV.C69_refuted",
    "HyperCV.C69_refuted_time",
    "HyperCV.C69_refuted_anomaly",
    "HyperCV.C69_kepler_partial",
    "HyperCV.C69_radius_partial"
   ],
   "note": "Refuted: the function writes through a pointer that is never set; even with an object there, the reduced time is never computed and the true anomaly is wrong already for circular orbits. Proved for such an object: error bound of the iteration for Kepler's equation and the bounds of the radius."
  },
  {
   "property": "C70",
   "status": "partial",
   "theorems": [
    "HyperCV.C70_transport",
    "HyperCV.C70_others",
    "HyperCV.C70_twice",
    "HyperCV.C70_refuted_type"
   ],
   "note": "Proved for a destination with elements of the same size; refuted without it: the element type of the destination is not checked, and every destination of smaller elements is written beyond its end."
  },
  {
   "property": "C71",
   "status": "partial",
   "theorems": [
    "HyperCV.C71_mean",
    "HyperCV.C71_accuracy_partial",
    "HyperCV.C71_refuted_type",
    "HyperCV.C71_error"
   ],
   "note": "Proved for float cubes (the value is the single-precision mean; accuracy for sums up to 2^24). Refuted for other types: the type is not checked and every cube of elements of less than four bytes is read beyond its end. Error bound for arbitrary finite spectra."
  },
  {
   "property": "C72",
   "status": "partial",
   "theorems": [
    "HyperCV.C72_symmetric",
    "HyperCV.C72_self",
    "HyperCV.C72_refuted_infinite",
    "HyperCV.C72_exact_partial",
    "HyperCV.C72_accuracy_partial",
    "HyperCV.C72_error"
   ],
   "note": "Symmetry for all spectra, zero for equal finite spectra (NaN with infinite elements), exactness and relative error 2^-23 for integer spectra of squared distance up to 2^24. For arbitrary finite spectra with squared distance in [2^-99, 2^125]: relative error at most (n+5)/2^23."
  },
  {
   "property": "C73",
   "status": "partial",
   "theorems": [
    "HyperCV.C73_symmetric",
    "HyperCV.C73_defined",
    "HyperCV.C73_refuted_large",
    "HyperCV.C73_refuted_self",
    "HyperCV.C73_refuted_reflectance",
    "HyperCV.C73_proportional_partial"
   ],
   "note": "acos is a parameter. Symmetry proved. Refuted: products of 2^31 or more are undefined; the spectrum (64,1) has angle NaN with itself; spectra of reflectances in [2^-10, 1-2^-10] all have the angle acos 0, because abs truncates the products to int. Proportional small integer spectra have angle acos 1."
  },
  {
   "property": "C74",
   "status": "partial",
   "theorems": [
    "HyperCV.C74_match",
    "HyperCV.C74_refuted_sense"
   ],
   "note": "Proved: 1 exactly where the computed angle is at least the threshold. Refuted as a match: a pixel equal to the reference is marked 0 for every positive threshold."
  },
  {
   "property": "C75",
   "status": "partial",
   "theorems": [
    "HyperCV.C75_read_partial",
    "HyperCV.C75_refuted_overrun"
   ],
   "note": "Proved for files of at most length numbers (the entries after them are not initialised). Refuted: more numbers, or any text that is not a number, write beyond the array."
  },
  {
   "property": "C76",
   "status": "partial",
   "theorems": [
    "HyperCV.C76_absolute",
    "HyperCV.C76_exact_partial",
    "HyperCV.C76_refuted_wavelengths",
    "HyperCV.C76_refuted_order"
   ],
   "note": "Proved for bip cubes apart from the wavelengths. Refuted: the wavelengths of the result are always zero, and in other orders the coefficients are applied to the wrong bands."
  },
  {
   "property": "C77",
   "status": "partial",
   "theorems": [
    "HyperCV.C77_relative_partial",
    "HyperCV.C77_refuted_bounds",
    "HyperCV.C77_refuted_entry"
   ],
   "note": "Proved when the number of samples equals the number of bands. Refuted otherwise: with more bands than samples the table is always read beyond its end; with more samples than bands the wrong entries are used."
  },
  {
   "property": "C78",
   "status": "partial",
   "theorems": [
    "HyperCV.C78_monotone_partial",
    "HyperCV.C78_zero",
    "HyperCV.C78_defined_partial",
    "HyperCV.C78_linear_partial",
    "HyperCV.C78_range_partial",
    "HyperCV.C78_refuted_constant",
    "HyperCV.C78_refuted_max",
    "HyperCV.C78_refuted_negative"
   ],
   "note": "Proved: the order (except zero against negative values), definedness for values up to 8000000 with a spread of at least one, and an error of at most 1.4 for 12-bit values. Refuted: a constant band makes the call undefined; large values with a small spread map the maximum to 192; zero becomes 0 even when it is not the minimum."
  },
  {
   "property": "C79",
   "status": "partial",
   "theorems": [
    "HyperCV.C79_returns",
    "HyperCV.C79_minmax_partial",
    "HyperCV.C79_ends",
    "HyperCV.C79_refuted_constant",
    "HyperCV.C79_refuted_large",
    "HyperCV.C79_refuted_channels"
   ],
   "note": "Proved: the call returns on every one-channel image and changes only the destination; the linear map within rounding for values up to 1000000; the ends are met exactly for byte images. Refuted: constant images become 0 whatever the limits; values above 1000000 break the search for the minimum; only the first rows*cols elements of a multi-channel image are treated."
  },
  {
   "property": "C80",
   "status": "partial",
   "theorems": [
    "HyperCV.C80_inf_partial",
    "HyperCV.C80_l1_partial",
    "HyperCV.C80_l2_partial",
    "HyperCV.C80_l1_bytes_partial",
    "HyperCV.C80_l2_bytes_partial",
    "HyperCV.C80_l1_float_partial",
    "HyperCV.C80_refuted_negative",
    "HyperCV.C80_refuted_large"
   ],
   "note": "Proved within rounding for non-negative values whose sums are exact, for L1 with byte images of every size and float images with any signs up to 2^22 pixels, and for L2 with byte images up to 2^22 pixels, with the error of the float sums. Refuted: the INF norm takes the largest value instead of the largest magnitude; in images of 2^26 pixels or more the L2 result can be twice the exact one."
  },
  {
   "property": "C81",
   "status": "partial",
   "theorems": [
    "HyperCV.C81_refuted_fraction",
    "HyperCV.C81_refuted_type"
   ],
   "note": "Refuted: results are rounded to bytes, so 0..1 keeps only 0 and 1; a byte destination is written beyond its end."
  },
  {
   "property": "C82",
   "status": "partial",
   "theorems": [
    "HyperCV.C82_down",
    "HyperCV.C82_range",
    "HyperCV.C82_refuted_channels",
    "HyperCV.C82_refuted_leak"
   ],
   "note": "Proved: the value of every pixel, the range and that nothing else changes, for every size. Refuted: a destination with fewer channels is not refused but written beyond its end; every call leaves an image allocated."
  },
  {
   "property": "C83",
   "status": "partial",
   "theorems": [
    "HyperCV.C83_up",
    "HyperCV.C83_constant_partial",
    "HyperCV.C83_refuted_border"
   ],
   "note": "Proved: an exact description of every pixel as coded (C83_up); constant images stay constant in the interior. Refuted at the border for every size: value 100 becomes 225 in the first and 25 in the last pixel."
  },
  {
   "property": "C84",
   "status": "partial",
   "theorems": [
    "HyperCV.C84_zero_partial",
    "HyperCV.C84_refuted_size",
    "HyperCV.C84_refuted_quarter"
   ],
   "note": "Proved for the angle zero and every size: every pixel keeps its place, the rest is zero, the source keeps its values (converted to bip). Refuted: with an odd number of samples the result is larger than the source already for the angle zero; a quarter turn of a cube of 4 samples and 2 lines writes outside the destination, whatever the bands and the data type (cos and sin are parameters with their correctly rounded values at that angle)."
  },
  {
   "property": "C85",
   "status": "partial",
   "theorems": [
    "HyperCV.C85_refuted",
    "HyperCV.C85_refuted_single"
   ],
   "note": "Refuted for every float cube of more than one element: the call never returns a result, because the products are called with the result first; the first (two or more bands) or the last (one band) accesses memory outside the filter. For a cube of one element a concrete run returns zero for a pixel equal to the spectrum and changes the caller's spectrum."
  },
  {
   "property": "C86",
   "status": "partial",
   "theorems": [
    "HyperCV.C86_norm_partial",
    "HyperCV.C86_overflow_refuted",
    "HyperCV.C86_underflow_refuted"
   ],
   "note": "Proved with an explicit error bound for all vectors of up to 2^20 elements whose squared length lies in [2^-100, 2^126]. Refuted outside: the squares overflow or vanish although the length is a float."
  },
  {
   "property": "C87",
   "status": "partial",
   "theorems": [
    "HyperCV.C87_first_column_partial",
    "HyperCV.C87_leak",
    "HyperCV.C87_identity_refuted"
   ],
   "note": "The first column and the first diagonal entry are right up to a proved error bound and only the factors are written. Refuted for the identity of every size above one; every call also loses two blocks."
  },
  {
   "property": "C88",
   "status": "partial",
   "theorems": [
    "HyperCV.C88_memory_partial",
    "HyperCV.C88_direction_refuted",
    "HyperCV.C88_nan_refuted"
   ],
   "note": "Memory behaviour proved for every square matrix. Refuted: a symmetric matrix gets the vector of the other eigenvalue, a diagonal matrix gets NaN."
  },
  {
   "property": "C89",
   "status": "partial",
   "theorems": [
    "HyperCV.C89_numeral_partial",
    "HyperCV.C89_integer",
    "HyperCV.C89_not_exact",
    "HyperCV.C89_sign_lost",
    "HyperCV.C89_exponent_chars",
    "HyperCV.C89_exponent_sign",
    "HyperCV.C89_exponent_ignored",
    "HyperCV.C89_exponent_overflow"
   ],
   "note": "Proved: every numeral without a signed exponent (up to 2^18 digits, exponent up to 38, value up to 2^123) is converted with a relative error of at most (digits+2)/2^20, integers up to 16777168 are exact with any spaces, sign and leading zeros. False in general, with theorems for all texts: the sign of an integer is lost when anything but a point or an exponent follows it; the sign of an exponent behind decimals is ignored (1.5e-3 is read as 1500) and later digits of the text are appended to the exponent; an exponent with a sign behind an integer is ignored; an exponent beyond int is undefined behaviour; 16777215 is not converted exactly."
  },
  {
   "property": "C90",
   "status": "partial",
   "theorems": [
    "HyperCV.C90_addition_partial",
    "HyperCV.C90_widths",
    "HyperCV.C90_small"
   ],
   "note": "Proved for operands and destination of one width, any numbers of rows: correctly rounded sums in the common rows, everything else unchanged, sharing allowed. False in general: with operands of different widths all images are indexed with the row length of the narrower one (C90_widths, for all such images); a destination that is too small is written out of bounds (C90_small)."
  },
  {
   "property": "C91",
   "status": "partial",
   "theorems": [
    "HyperCV.C91_log_partial",
    "HyperCV.C91_channels"
   ],
   "note": "Proved for one channel, for every library logarithm. False for several channels: only the first rows*cols elements are converted (C91_channels, for all such images)."
  },
  {
   "property": "C92",
   "status": "partial",
   "theorems": [
    "HyperCV.C92_energy_partial",
    "HyperCV.C92_constant",
    "HyperCV.C92_header",
    "HyperCV.C92_one_row"
   ],
   "note": "Proved for grey images of at least 2 x 2 and at most 2^22 pixels: error at most RC/2^22 of the energy plus 5/2; images of one grey level give exactly zero; the memory afterwards is the memory before. False in general: the asserts on channels and data type are assignments, so any other image gets its header overwritten (C92_header); every image of one row is read out of bounds (C92_one_row)."
  },
  {
   "property": "C93",
   "status": "proved",
   "theorems": [
    "HyperCV.C93_dft",
    "HyperCV.C93_types"
   ],
   "note": "Proved against the transform over the complex numbers for exactly the images of the quantifier. Outside of it: other data types return without writing anything (C93_types)."
  },
  {
   "property": "C94",
   "status": "partial",
   "theorems": [
    "HyperCV.C94_idft_partial",
    "HyperCV.C94_roundtrip",
    "HyperCV.C94_refuted_scale",
    "HyperCV.C94_refuted_sixteen",
    "HyperCV.C94_types",
    "HyperCV.idft_dft"
   ],
   "note": "False of the code: the inverse divides by sqrt(RC) although the transform is not scaled, so that the result is sqrt(RC) times the image, clipped (C94_roundtrip; C94_refuted_scale for all images with one bright pixel); 16-bit results are clipped at 255 (C94_refuted_sixteen); other types are ignored silently (C94_types). Proved: the error bound against sqrt(RC) times the mathematical inverse (C94_idft_partial), and that the mathematical inverse inverts the mathematical transform (idft_dft)."
  },
  {
   "property": "C95",
   "status": "partial",
   "theorems": [
    "HyperCV.C95_spectrum_partial",
    "HyperCV.C95_channels",
    "HyperCV.dft_centre"
   ],
   "note": "Proved for grey images: the value is the magnitude of the transform of the image with alternating signs. For even sizes this is the spectrum moved by half a period (dft_centre); for odd sizes it is not a permutation of the spectrum. Images with several channels are not rejected: only the first RC elements count (C95_channels)."
  },
  {
   "property": "C96",
   "status": "partial",
   "theorems": [
    "HyperCV.C96_magnitude_partial",
    "HyperCV.C96_refuted",
    "HyperCV.C96_first_only"
   ],
   "note": "False of the code: the imaginary part is read at index i*cols*j, out of bounds for every image with at least two rows and three columns (C96_refuted); in an image of one row all pixels use the first imaginary part (C96_first_only). Proved: the value for images of one row or at most two columns with equal imaginary parts."
  },
  {
   "property": "C97",
   "status": "proved",
   "theorems": [
    "HyperCV.C97_average",
    "HyperCV.C97_variance",
    "HyperCV.C97_deviation"
   ],
   "note": "Proved with explicit error bounds in terms of the length, the variance and the mean magnitude. Assumption of the model: pow(x, 2) is the correctly rounded square."
  },
  {
   "property": "C98",
   "status": "partial",
   "theorems": [
    "HyperCV.C98_otsu_partial",
    "HyperCV.C98_refuted"
   ],
   "note": "Refuted for the exact luminance levels: float rounding counts some exact whole luminances as one less, so every image of the greys 22 and 23 gets threshold 0, which separates nothing (C98_refuted). C98_otsu_partial: the threshold separates, and is optimal up to 2^-29, for levels that are the whole part of the luminance or, only for whole luminances, one less."
  },
  {
   "property": "C99",
   "status": "partial",
   "theorems": [
    "HyperCV.C99_hu_partial",
    "HyperCV.C99_black_undefined",
    "HyperCV.C99_null_lost",
    "HyperCV.C99_channels_ignored",
    "HyperCV.C99_half_turn"
   ],
   "note": "Refuted for black images (0/0 converted to int: undefined, C99_black_undefined), for a missing array (result lost and leaked, C99_null_lost), for several channels (only the first rows*columns bytes are looked at, C99_channels_ignored) and for turned pictures (the centre is rounded to a pixel, C99_half_turn). C99_hu_partial: for one-channel images that are not black the stored values are the invariants about the rounded centre up to 2^-38 of their magnitude. Assumes pow has a relative error of at most 2^-50 for the exponents 2 and 2.5."
  },
  {
   "property": "C100",
   "status": "partial",
   "theorems": [
    "HyperCV.C100_symmetric_partial",
    "HyperCV.C100_moved_partial",
    "HyperCV.C100_self_partial",
    "HyperCV.C100_one_pixel_nan",
    "HyperCV.C100_leak"
   ],
   "note": "Refuted for shapes of one pixel (the similarity of such an image with itself is NaN, C100_one_pixel_nan) and for the memory (every call leaks 112 bytes, C100_leak); black images are undefined (C99_black_undefined). Proved for all other images: symmetry and the bound one (any pow), and exactly one for every pair of placements of a shape with more than one pixel (pow with relative error 2^-50)."
  },
  {
   "property": "C101",
   "status": "partial",
   "theorems": [
    "HyperCV.C101_filters_partial",
    "HyperCV.C101_unknown_accepted"
   ],
   "note": "Refuted for unknown wavelet numbers: the assertion joins its inequalities with 'or' and never fails, so a base of length zero with null filters is returned (C101_unknown_accepted). C101_filters_partial: both known wavelets, all heap states."
  },
  {
   "property": "C102",
   "status": "proved",
   "theorems": [
    "HyperCV.C102_reconstruction"
   ],
   "note": "The filters are those read from the returned arrays (exact values of the doubles)."
  },
  {
   "property": "C103",
   "status": "partial",
   "theorems": [
    "HyperCV.C103_base_round_trip",
    "HyperCV.C103_null",
    "HyperCV.C103_fourth_filter_lost",
    "HyperCV.C103_info",
    "HyperCV.C103_coefset_partial",
    "HyperCV.C103_pixels_lost"
   ],
   "note": "Proved for every base made by set_wavelet_base, for wt_info and for coefficient sets of images with pixels in their own allocation. Refuted for bases without second filter (the test before freeing the fourth filter looks at the second, C103_fourth_filter_lost) and for images with separate pixels (C103_pixels_lost)."
  },
  {
   "property": "C104",
   "status": "partial",
   "theorems": [
    "HyperCV.C104_run_partial",
    "HyperCV.C104_leak_refuted",
    "HyperCV.C104_one_band_refuted",
    "HyperCV.C104_type_refuted",
    "HyperCV.C104_small_type_refuted",
    "HyperCV.C104_grey_refuted"
   ],
   "note": "C104_run_partial: normal return, the exact float result for some matrix common to all pixels, frame. Missing: that the matrix consists of principal directions (false, see C88). Refuted: the projection is added to the old result, for one band the result does not change at all (C104_one_band_refuted); 2*iteration+1 blocks are lost at every call (C104_leak_refuted); the type is overwritten instead of checked (C104_type_refuted) and bytes and shorts are read beyond their end (C104_small_type_refuted); equal bands give NaN (C104_grey_refuted)."
  },
  {
   "property": "C105",
   "status": "partial",
   "theorems": [
    "HyperCV.C105_refused_partial",
    "HyperCV.C105_resize_refuted",
    "HyperCV.C105_null_refuted"
   ],
   "note": "Only the refusal of different types holds. Refuted for every pair of images: the function ends after its tests; null pointers are followed before they are tested."
  },
  {
   "property": "C106",
   "status": "partial",
   "theorems": [
    "HyperCV.C106_line_refuted",
    "HyperCV.C106_overflow_refuted"
   ],
   "note": "Refuted for all inputs: the body is a comment; only the accumulator length is computed, which overflows from a maximal distance of 5948708 on."
  },
  {
   "property": "C107",
   "status": "proved",
   "theorems": [
    "HyperCV.C107_programs_mean_what_they_say",
    "HyperCV.C107_no_leak",
    "HyperCV.C107_output_determined"
   ],
   "note": "Refinement: every finite history of the listed operations, by induction on the history with the invariant Represents (values, separation, frame, exact set of allocated objects). hyper_mat_copy and the conversions to the order a cube already has are not among the operations: they return NULL, see C04."
  },
  {
   "property": "C108",
   "status": "partial",
   "theorems": [
    "HyperCV.C108_programs_partial",
    "HyperCV.C108_no_leak_partial",
    "HyperCV.C108_output_partial",
    "HyperCV.C108_refuted"
   ],
   "note": "False as stated: releasing an image that lies 48 bytes behind a multiple of 64 is undefined behaviour (C108_refuted, for every size and type). Proved for every history in all memories without such addresses, by forward simulation. Images with several channels are not among the operations (their contents are undefined after creation, see C10), nor putting bands into cubes of wider types (wrong, see C17)."
  },
  {
   "property": "C109",
   "status": "partial",
   "theorems": [
    "HyperCV.C109_header_partial",
    "HyperCV.C109_open_partial",
    "HyperCV.C109_array_partial",
    "HyperCV.C109_refuted_long_file",
    "HyperCV.C109_refuted_wavelengths",
    "HyperCV.C109_refuted_save_open",
    "HyperCV.C109_refuted_keyword",
    "HyperCV.C109_refuted_empty_line",
    "HyperCV.C109_refuted_no_header",
    "HyperCV.C109_refuted_array"
   ],
   "note": "False as stated, each for all cases: files longer than the cube overrun the storage, headers with wavelengths (all that save writes) are written through NULL, keywords of 20 characters overflow an array, empty lines and missing headers use uninitialised values, and wavelengths read into an array are all the first one. Proved for headers without these lines and files that are not longer than the cube. Lists with a blank behind each comma are read into an array correctly (C109_array_partial)."
  },
  {
   "property": "C110",
   "status": "partial",
   "theorems": [
    "HyperCV.C110_names_partial",
    "HyperCV.C110_two_cubes_partial",
    "HyperCV.C110_object_partial",
    "HyperCV.C110_refuted_leak",
    "HyperCV.C110_refuted_name",
    "HyperCV.C110_refuted_shared",
    "HyperCV.C110_refuted_image_lost"
   ],
   "note": "The names of the C function are right (C110_names_partial, C110_two_cubes_partial), but each call leaks two blocks. The C++ function drops everything from the first dot and the dot: no header gets a name ending in .hdr, images that agree before the first dot share one header, and an image can be replaced by a header. Not modelled: files that cannot be opened for writing."
  },
  {
   "property": "C111",
   "status": "partial",
   "theorems": [
    "HyperCV.C111_one_channel_partial",
    "HyperCV.C111_rejects",
    "HyperCV.C111_refuted_channels",
    "HyperCV.C111_refuted_delete",
    "HyperCV.C111_refuted_short"
   ],
   "note": "Proved for one channel and complete files. False for every number of channels from two on: the storage has room for one channel, and using the image reads behind its end. Short files leave uninitialised elements. Whether the pixels are released by delete_simple_mat depends on the addresses of the allocator; both cases are proved."
  },
  {
   "property": "C112",
   "status": "partial",
   "theorems": [
    "HyperCV.C112_report",
    "HyperCV.C112_null",
    "HyperCV.C112_tells_partial",
    "HyperCV.C112_refuted_wavelengths"
   ],
   "note": "The exact text is proved for all cubes. It determines geometry, type and order, and all wavelengths that six decimals determine; small wavelengths that differ are printed alike (C112_refuted_wavelengths)."
  },
  {
   "property": "C113",
   "status": "partial",
   "theorems": [
    "HyperCV.C113_null_partial",
    "HyperCV.C113_refuted_leak",
    "HyperCV.C113_refuted_level",
    "HyperCV.C113_refuted_signal"
   ],
   "note": "False as stated for all images: the functions end without a value and lose what they have allocated; the transform of a signal stores nothing. Only the refusal of a missing image holds. The stored fields of the lost wt_info are not modelled."
  },
  {
   "property": "C114",
   "status": "partial",
   "theorems": [
    "HyperCV.C114_programs_with_files_partial",
    "HyperCV.C114_output_determined_partial",
    "HyperCV.C114_wavelength_kept",
    "HyperCV.C114_refuted_leak"
   ],
   "note": "Proved for all programs whose wavelengths are finite and below 10^9, if fresh storage of 20 n bytes ends with a zero byte (without one, reading is undefined behaviour, see C14_refuted). False as stated: every save and every read loses two blocks; the exact number is proved (C114_refuted_leak)."
  },
  {
   "property": "C115",
   "status": "partial",
   "theorems": [
    "HyperCV.C115_stopped_save_partial",
    "HyperCV.C115_no_header",
    "HyperCV.C115_refuted_mixed",
    "HyperCV.C115_refuted_undefined",
    "HyperCV.C115_refuted_uninitialised"
   ],
   "note": "Proved for every program and every point: all other cubes and files are kept; before the first and after the last action the old or the new cube is there; a missing header is reported. False as stated: for every save there are points at which reading gives the new elements with the old wavelengths, is undefined behaviour, or gives elements that were never initialised."
  },
  {
   "property": "C116",
   "status": "partial",
   "theorems": [
    "HyperCV.C116_any_partial",
    "HyperCV.C116_correlation_partial",
    "HyperCV.C116_refuted_previous",
    "HyperCV.C116_refuted_range",
    "HyperCV.C116_refuted_overflow"
   ],
   "note": "Proved for all six types and all sizes: the previous entry plus the entry of the product, reduced to the type, divided by n; it is the stated quotient when res was zero and the sums are values of the type. False as stated: the result depends on the previous contents, sums wrap although the quotient fits, and int sums overflow."
  },
  {
   "property": "C117",
   "status": "partial",
   "theorems": [
    "HyperCV.C117_addition_partial",
    "HyperCV.C117_refuted_wrap",
    "HyperCV.C117_refuted_widths",
    "HyperCV.C117_refuted_small",
    "HyperCV.C117_refuted_type"
   ],
   "note": "Proved for images of one width, also with shared storage: the sum modulo 256 in the common rows, everything else unchanged. False as stated: sums over 255 wrap, operands of different widths are read with the wrong row length, small destinations are written beyond their end, types are not tested."
  },
  {
   "property": "C118",
   "status": "partial",
   "theorems": [
    "HyperCV.C118_splicing_partial",
    "HyperCV.C118_bands_partial",
    "HyperCV.C118_lines_partial",
    "HyperCV.C118_types",
    "HyperCV.C118_refuted_fit",
    "HyperCV.C118_refuted_order"
   ],
   "note": "Proved for all parts that fit: elements in storage order, bands of bsq cubes, lines of bil and bip cubes, everything else unchanged; other types are rejected. False as stated: parts that do not fit write out of bounds for every start position, and another order is not detected."
  },
  {
   "property": "C119",
   "status": "partial",
   "theorems": [
    "HyperCV.C119_programs_partial",
    "HyperCV.C119_refuted_leak",
    "HyperCV.C119_output_determined_partial"
   ],
   "note": "Proved for all programs by simulation, where fresh storage of 20n bytes ends with a zero byte and no object lies 48 bytes behind a multiple of 64 (otherwise false: C14_refuted, C108_refuted). False as stated: exactly two blocks remain for every call that saves or reads a cube (C119_refuted_leak)."
  },
  {
   "property": "C120",
   "status": "partial",
   "theorems": [
    "HyperCV.C120_history_partial",
    "HyperCV.C120_possible",
    "HyperCV.C120_happens",
    "HyperCV.C120_refuted_undefined"
   ],
   "note": "Proved for all histories: every run sees what its meaning says, every cube whose name was not being saved when a run was stopped (since its last complete save) can be read, and every further program works. False as stated: a stopped save may destroy the cube that had this name before, and reading it is undefined behaviour (C120_refuted_undefined, after every history). Same conditions on fresh storage and addresses as C119."
  }
 ]
}
