{
 "claims": [
  {
   "property": "C01",
   "status": "proved",
   "theorems": [
    "Zune.c01_magic"
   ],
   "note": ""
  },
  {
   "property": "C02",
   "status": "proved",
   "theorems": [
    "Zune.c02_headers",
    "Zune.c02_decode"
   ],
   "note": ""
  },
  {
   "property": "C03",
   "status": "partial",
   "theorems": [
    "Zune.c03_info_partial",
    "Zune.c03_false"
   ],
   "note": "False as stated: FF fill bytes in the header are misparsed so that the byte before C0/C2 need not be a separate FF; refuted by a witness, proved for files without a doubled FF."
  },
  {
   "property": "C04",
   "status": "proved",
   "theorems": [
    "Zune.c04_prefix"
   ],
   "note": ""
  },
  {
   "property": "C05",
   "status": "proved",
   "theorems": [
    "Zune.c05_headers",
    "Zune.c05_decode"
   ],
   "note": ""
  },
  {
   "property": "C06",
   "status": "partial",
   "theorems": [
    "Zune.c06_no_panic_partial",
    "Zune.c06_false"
   ],
   "note": "False: a scan header naming component id 4 of a frame with four or more components panics; refuted by a witness. Proved whenever no frame header has more than three components."
  },
  {
   "property": "C07",
   "status": "proved",
   "theorems": [
    "Zune.c07_strict_mode",
    "Zune.c07_rejects",
    "Zune.c07_exact"
   ],
   "note": ""
  },
  {
   "property": "C08",
   "status": "proved",
   "theorems": [
    "Zune.c08_limits",
    "Zune.c08_new",
    "Zune.c08_rejects",
    "Zune.c52_accepted_iff"
   ],
   "note": ""
  },
  {
   "property": "C09",
   "status": "proved",
   "theorems": [
    "Zune.c09_transparent",
    "Zune.Spec.transparent_app_com"
   ],
   "note": ""
  },
  {
   "property": "C10",
   "status": "proved",
   "theorems": [
    "Zune.c10_accepted_iff",
    "Zune.c10_dht"
   ],
   "note": "Iff with the canonical code of T.81 Annex C written down independently (Spec.CodeExists)."
  },
  {
   "property": "C11",
   "status": "proved",
   "theorems": [
    "Zune.c11_decode_symbol",
    "Zune.decodeDc_eq"
   ],
   "note": "Over the 64 bit window; no match gives HuffmanDecode and leaves the reader unchanged."
  },
  {
   "property": "C12",
   "status": "proved",
   "theorems": [
    "Zune.c12_prefix_free"
   ],
   "note": ""
  },
  {
   "property": "C13",
   "status": "partial",
   "theorems": [
    "Zune.c13_fast_ac_partial",
    "Zune.c13_exact_partial",
    "Zune.c13_sizes_partial",
    "Zune.c13_false_magnitude",
    "Zune.c13_false_run"
   ],
   "note": "False in general: magnitude category 6 and above with short codes, and category 0 with run 1..14; both refuted by witnesses. c13_exact_partial and c13_sizes_partial say exactly which entries are right (sizes 1 to 5, the value -32, 0x00 and 0xF0) and what the others say."
  },
  {
   "property": "C14",
   "status": "partial",
   "theorems": [
    "Zune.c14_order_partial",
    "Zune.c14_false"
   ],
   "note": "False for progressive files: is_progressive is read when a DHT segment is parsed, so that tables in front of SOF2 are built as baseline tables; refuted by a witness. Proved for SOF0."
  },
  {
   "property": "C15",
   "status": "proved",
   "theorems": [
    "Zune.c15_reader",
    "Zune.c15_refilled_reads"
   ],
   "note": "Representation invariant Rep for every sequence of refills and reads."
  },
  {
   "property": "C16",
   "status": "proved",
   "theorems": [
    "Zune.c16_fast_refill",
    "Zune.c16_refill_is_bytewise"
   ],
   "note": ""
  },
  {
   "property": "C17",
   "status": "proved",
   "theorems": [
    "Zune.c17_extend",
    "Zune.c17_bijection"
   ],
   "note": ""
  },
  {
   "property": "C18",
   "status": "partial",
   "theorems": [
    "Zune.c18_dc_partial",
    "Zune.c18_false"
   ],
   "note": "False in general: decode_dc refills only below 16 buffered bits; refuted with table K.3. Proved whenever the code fits what is buffered."
  },
  {
   "property": "C19",
   "status": "partial",
   "theorems": [
    "Zune.c19_round_trip_partial",
    "Zune.c19_false",
    "Zune.c19_safe_lum",
    "Zune.c19_safe_chroma"
   ],
   "note": "The claim for every accepted table is false (c19_false: a 6 bit magnitude inside the 9 bit window). Conditions of the partial theorem: the needed symbols have codes, DC code covered by C18, no size >= 6 symbol inside the 9 bit window (C13); both standard tables meet the last one."
  },
  {
   "property": "C20",
   "status": "proved",
   "theorems": [
    "Zune.c20_baseline",
    "Zune.c20_ac_first",
    "Zune.c20_ac_refine"
   ],
   "note": ""
  },
  {
   "property": "C21",
   "status": "proved",
   "theorems": [
    "Zune.c21_marker",
    "Zune.c21_sync",
    "Zune.c21_marker_code"
   ],
   "note": ""
  },
  {
   "property": "C22",
   "status": "partial",
   "theorems": [
    "Zune.c22_gray_partial",
    "Zune.c22_colour_partial",
    "Zune.c22_encoder",
    "Zune.c22_false",
    "Zune.c22_late_false"
   ],
   "note": "baseline images with one component: all restart intervals, codes and blocks, if the last AC symbol of each interval takes at most 24 bits with its magnitude (without that a valid file may be refused, c22_late_false). Three components, all samplings and output formats: all restart intervals of r MCUs whose last r components take at least 64 bits, and with the codes of the encoder all intervals of six or more MCUs and all coefficients. The code violates it for shorter intervals (restarts are counted per component instead of per MCU)"
  },
  {
   "property": "C23",
   "status": "proved",
   "theorems": [
    "Zune.c23_step",
    "Zune.c23_band"
   ],
   "note": "for scans of one component under Frame while no restart falls due"
  },
  {
   "property": "C24",
   "status": "partial",
   "theorems": [
    "Zune.c24_refine_partial",
    "Zune.c24_false"
   ],
   "note": "False in general: a refinement block can write a new coefficient past the end of the band when the run overflows it; refuted by a witness. Proved for coefficients inside the band and all others but that one position."
  },
  {
   "property": "C25",
   "status": "proved",
   "theorems": [
    "Zune.c25_first",
    "Zune.c25_rebuild"
   ],
   "note": ""
  },
  {
   "property": "C26",
   "status": "partial",
   "theorems": [
    "Zune.c26_range_partial",
    "Zune.c26_false"
   ],
   "note": "False for the scalar code, whose shortcut for flat blocks does not clamp; refuted by a witness. Proved for AVX2, and for the scalar code exactly when the wrapped DC coefficient of every flat block is in -1024..1023."
  },
  {
   "property": "C27",
   "status": "partial",
   "theorems": [
    "Zune.c27_flat_partial",
    "Zune.c27_false"
   ],
   "note": "False: the shortcut rounds down, the general algorithm to nearest, and the shortcut computes in i16; refuted by witnesses. Proved to differ by at most one when the product fits in an i16."
  },
  {
   "property": "C28",
   "status": "partial",
   "theorems": [
    "Zune.c28_agree_partial",
    "Zune.c28_false"
   ],
   "note": "False: the AVX2 code transforms rows first and rounds in between; refuted by a witness. Proved to differ by at most one for dequantised coefficients up to 2048."
  },
  {
   "property": "C29",
   "status": "proved",
   "theorems": [
    "Zune.c29_layout"
   ],
   "note": ""
  },
  {
   "property": "C30",
   "status": "proved",
   "theorems": [
    "Zune.c30_baseline",
    "Zune.c30_interleaved",
    "Zune.c30_single",
    "Zune.places_component",
    "Zune.frame_of_sof",
    "Zune.c30_file"
   ],
   "note": "for frames with the luma component first and 1x1 chroma (the only ones that check_component_dimensions accepts); frame_of_sof links a frame header to the hypothesis Frame. In a scan of luma alone the padding blocks are not visited, so Onto is claimed there only for 1x1"
  },
  {
   "property": "C31",
   "status": "partial",
   "theorems": [
    "Zune.c31_horizontal_partial",
    "Zune.c31_false"
   ],
   "note": "False of the last but one output sample, whose two weights are exchanged; refuted by a witness. Proved for all other samples, for every length; the value at the wrong one is given too."
  },
  {
   "property": "C32",
   "status": "partial",
   "theorems": [
    "Zune.c32_sse_partial",
    "Zune.c32_false"
   ],
   "note": "False: the samples at 2n-5, 2n-4 and 2n-3 differ; refuted by a witness. Proved for all other positions and every length that is a multiple of four, with the values at these three."
  },
  {
   "property": "C33",
   "status": "proved",
   "theorems": [
    "Zune.c33_vertical"
   ],
   "note": ""
  },
  {
   "property": "C34",
   "status": "proved",
   "theorems": [
    "Zune.c34_jfif"
   ],
   "note": ""
  },
  {
   "property": "C35",
   "status": "proved",
   "theorems": [
    "Zune.c35_simd"
   ],
   "note": ""
  },
  {
   "property": "C36",
   "status": "proved",
   "theorems": [
    "Zune.c36_ycbcr"
   ],
   "note": ""
  },
  {
   "property": "C37",
   "status": "partial",
   "theorems": [
    "Zune.c37_gray_partial",
    "Zune.c37_false",
    "Zune.c37_false_file"
   ],
   "note": "exact condition on width and padded width; other widths panic"
  },
  {
   "property": "C38",
   "status": "partial",
   "theorems": [
    "Zune.c38_exact_partial",
    "Zune.c38_narrow_partial",
    "Zune.c38_wide_partial",
    "Zune.c38_sse_false",
    "Zune.c38_sse_file",
    "Zune.c38_false",
    "Zune.c38_false_file",
    "Zune.c38_false_edge"
   ],
   "note": "every byte of the output is given (c38_exact_partial, whole files in c55_pixel_partial): widths up to 16 are right; for wider images all but the last 31 columns are right, the right edge is refuted for every file (c38_false_edge); the SSE converter panics exactly for the other sizes (c38_sse_file)"
  },
  {
   "property": "C39",
   "status": "partial",
   "theorems": [
    "Zune.c39_rgba_partial",
    "Zune.c39_false",
    "Zune.c39_false_file",
    "Zune.reachable_three"
   ],
   "note": "refuted for every decoder object and width; holds for the RGBA converters, which no decoder uses"
  },
  {
   "property": "C40",
   "status": "partial",
   "theorems": [
    "Zune.c40_length_partial",
    "Zune.c40_false"
   ],
   "note": "False as stated: a frame header inside the scan changes width() and height() after the buffer was sized; refuted by a witness. Proved when the frame information after decoding is that of the headers and both dimensions are at most 65527."
  },
  {
   "property": "C41",
   "status": "proved",
   "theorems": [
    "Zune.c41_schedules",
    "Zune.c41_sequential",
    "Zune.c41_baseline",
    "Zune.c41_progressive",
    "Zune.c41_threads"
   ],
   "note": "jobs are modelled as small-step programs on their own chunk; every interleaving that settles leaves the same buffer"
  },
  {
   "property": "C42",
   "status": "partial",
   "theorems": [
    "Zune.c42_colour_partial",
    "Zune.c42_gray_partial",
    "Zune.c42_partial",
    "Zune.c42_false",
    "Zune.c42_factors_false"
   ],
   "note": "proved for colour images after any colour images whose factors do not exceed those that follow, for grayscale images after any such colour images (without subsampling in strict mode) and grayscale images, and up to left-over Huffman tables for all files; false in general (c42_false, c42_factors_false)"
  },
  {
   "property": "C43",
   "status": "proved",
   "theorems": [
    "Zune.c43_scan_limit"
   ],
   "note": ""
  },
  {
   "property": "C44",
   "status": "partial",
   "theorems": [
    "Zune.c44_partial",
    "Zune.c44_progressive_partial",
    "Zune.c44_lost",
    "Zune.c44_false"
   ],
   "note": "the code violates it: with horizontal luma factor 2 and an odd number of MCU rows the last row is dropped (c44_lost, c44_false). Proved: exactly when all rows are covered, for baseline and progressive"
  },
  {
   "property": "C45",
   "status": "partial",
   "theorems": [
    "Zune.c45_partial",
    "Zune.c45_lost",
    "Zune.c45_false",
    "Zune.strips_eq"
   ],
   "note": "the code violates it for wide, low, vertically subsampled images (c45_lost, c45_false). Proved for all others with sizes up to 65527"
  },
  {
   "property": "C46",
   "status": "partial",
   "theorems": [
    "Zune.c46_options",
    "Zune.c46_observe_complete",
    "Zune.c46_limits",
    "Zune.c46_threads_partial",
    "Zune.c46_threads_false"
   ],
   "note": "Set/get independence in full; set_num_threads panics for multiples of 2^32 (witness), proved for the other values."
  },
  {
   "property": "C47",
   "status": "partial",
   "theorems": [
    "Zune.c47_decode",
    "Zune.c47_sse",
    "Zune.c47_color",
    "Zune.c47_hv",
    "Zune.c47_hv_false",
    "Zune.c47_idct_partial",
    "Zune.c47_false"
   ],
   "note": "Proved for the SSE upsampler, the colour converters, and every decode with any decoder object. The IDCT load at idct/avx2.rs:136 leaves the sub-slice vector[1..8] its pointer is taken from (c47_false) but stays inside the 64 element block, like all other IDCT loads. Alignment is not modelled."
  },
  {
   "property": "C48",
   "status": "partial",
   "theorems": [
    "Zune.c48_headers_partial",
    "Zune.c48_decode_partial",
    "Zune.c48_false"
   ],
   "note": "Proved for files without a doubled FF; c48_false refutes it for the others."
  },
  {
   "property": "C49",
   "status": "proved",
   "theorems": [
    "Zune.c49_table",
    "Zune.c49_permutation",
    "Zune.c49_quant_table",
    "Zune.c50_dqt"
   ],
   "note": ""
  },
  {
   "property": "C50",
   "status": "proved",
   "theorems": [
    "Zune.c50_dqt"
   ],
   "note": ""
  },
  {
   "property": "C51",
   "status": "proved",
   "theorems": [
    "Zune.c51_scan_header"
   ],
   "note": ""
  },
  {
   "property": "C52",
   "status": "proved",
   "theorems": [
    "Zune.c52_frame_header",
    "Zune.c52_accepted_iff"
   ],
   "note": ""
  },
  {
   "property": "C53",
   "status": "partial",
   "theorems": [
    "Zune.c53_gray_partial",
    "Zune.c53_encoder_partial",
    "Zune.c22_late_false"
   ],
   "note": "file bytes to output samples, for all sizes up to 65527, tables and coefficients; where 9w <= 64*ceil(w/8) the theorem states that the decoder panics. Missing: code words that meet the conditions of Codes.Block only (C13: magnitude bits that the fast table misreads), restart intervals whose last symbol takes more than 24 bits (endBits), which the code may refuse (c22_late_false)"
  },
  {
   "property": "C54",
   "status": "partial",
   "theorems": [
    "Zune.c54_hv_partial",
    "Zune.c54_avx_partial",
    "Zune.c54_false"
   ],
   "note": "False: the AVX2 code computes other values where its groups of 32 columns meet and in the last 32 columns of a row; refuted by a witness. Proved for all other columns and for planes below 512 samples; c54_avx_partial says what the AVX2 code computes in every column."
  },
  {
   "property": "C55",
   "status": "partial",
   "theorems": [
    "Zune.c55_ycbcr_partial",
    "Zune.c55_planes_partial",
    "Zune.c55_pixel_partial",
    "Zune.c55_encoder_partial",
    "Zune.c55_rgb_partial",
    "Zune.c55_gray_partial",
    "Zune.c55_false"
   ],
   "note": "whole files with three components and any of the four samplings. YCbCr output: every decoded row of the luma component, and of the chroma components without subsampling, has the samples of its data units. c55_planes_partial and c55_pixel_partial give every byte of the YCbCr and of the RGB output. RGB output is the converted YCbCr output, and grayscale output the luma samples, where the converters work (C37, C38); the chroma components with subsampling are C59. Needed: 64 bits from the last data unit on (the code violates the property without: c55_false, components that follow the prefetched EOI are skipped), restart intervals long enough for C22 (c22_false). Rows that the decoder loses (c44_false) are zero"
  },
  {
   "property": "C56",
   "status": "partial",
   "theorems": [
    "Zune.c56_accuracy_partial",
    "Zune.c56_large_false"
   ],
   "note": "for both implementations. Missing: flat blocks that overflow in the scalar implementation, which are wrong (C26), and products above 2048, some of which are wrong in both (c56_large_false: the 32-bit sums overflow)"
  },
  {
   "property": "C57",
   "status": "partial",
   "theorems": [
    "Zune.c57_round_trip_partial",
    "Zune.c57_energy",
    "Zune.idct_fdct",
    "Zune.c57_gray_partial",
    "Zune.c57_image_partial",
    "Zune.c57_false"
   ],
   "note": "proved for all images with AVX2, and with the scalar transform unless a flat block overflows; there a white block becomes black (c57_false). Widths with 9w <= 64*ceil(w/8) panic (C53)"
  },
  {
   "property": "C58",
   "status": "partial",
   "theorems": [
    "Zune.c58_gray_partial",
    "Zune.c58_same_partial",
    "Zune.c58_false",
    "Zune.c58_restart_false"
   ],
   "note": "all sizes, scan scripts, runs and tables for one component without restart intervals. For several components see C61. For segments other than DHT between scans see C67. The code violates it for some last codes of the first scan (c58_false) and for restart intervals (c58_restart_false)"
  },
  {
   "property": "C59",
   "status": "partial",
   "theorems": [
    "Zune.c59_vertical_partial",
    "Zune.c59_horizontal_partial",
    "Zune.c59_first_column_partial",
    "Zune.c59_both_partial",
    "Zune.c59_in_place_partial",
    "Zune.c59_line_partial",
    "Zune.c59_grid_partial",
    "Zune.c59_false_start",
    "Zune.c59_false_rows",
    "Zune.c59_false_flat"
   ],
   "note": "exact values for all three kinds of subsampling; they are in place for 1x2 and, away from the ends of the rows, 2x1. The code violates it at the start of rows (c59_false_start), for 2x2 (c59_false_rows) and at the joints of the AVX2 upsampler, where even flat chroma is changed (c59_false_flat). c59_line_partial and c59_grid_partial say what every pixel gets instead, with each of the upsamplers"
  },
  {
   "property": "C60",
   "status": "partial",
   "theorems": [
    "Zune.c60_planes_partial",
    "Zune.c60_rgb_partial",
    "Zune.c60_scalar_partial"
   ],
   "note": "all sizes, images and tables, for every processor and option, but for the last 31 columns of images of more than 16 columns, which the SIMD converters do not fill as they should (c38_false_file). c60_rgb_partial: with AVX2. c60_scalar_partial: any processor; with the scalar transform all planes stay q/16 away from black and white, q being the constant step, because flat blocks beyond are wrong (c57_false). c60_planes_partial: the same for each plane of YCbCr output with any of the four samplings (luma) and both transforms"
  },
  {
   "property": "C61",
   "status": "partial",
   "theorems": [
    "Zune.c61_planes_partial",
    "Zune.c61_same_partial",
    "Zune.c61_gray_partial",
    "Zune.c61_formats_partial",
    "Zune.c61_exact_partial",
    "Zune.c61_rgb_partial"
   ],
   "note": "all sizes, scan scripts, runs and tables, with luma sampling factors up to 2x2 and chroma 1x1, without restart intervals. c61_exact_partial: every byte of the YCbCr output, also of subsampled chroma; c61_rgb_partial: every byte of the RGB output if no block is only padding and the samples are bytes; c61_same_partial, c61_gray_partial, c61_formats_partial: equal to the output of any baseline file with the same coefficients. Missing: RGB for images with padding blocks, which single-component scans cannot give although the RGB output depends on them (c62_false), other sampling factors, and what fails for grayscale too (c58_false, c58_restart_false, c44_false)"
  },
  {
   "property": "C62",
   "status": "partial",
   "theorems": [
    "Zune.c62_ycbcr_partial",
    "Zune.c62_gray_partial",
    "Zune.c62_false"
   ],
   "note": "YCbCr and grayscale output, all sizes, tables and luma sampling factors up to 2x2. The code violates it for RGB output (c62_false), whose columns near the right edge are overwritten with pixels from outside of the image"
  },
  {
   "property": "C63",
   "status": "partial",
   "theorems": [
    "Zune.c63_unread_partial",
    "Zune.c63_progressive_partial",
    "Zune.c63_baseline_partial",
    "Zune.c63_false"
   ],
   "note": "all progressive files; baseline files that leave bytes unread or whose scan consists of coefficient data and restart markers up to an end of image marker. The code violates it for baseline files that are cut off (c63_false): it reads zeros behind the end. Missing: baseline scans with other segments inside that are read to the last byte"
  },
  {
   "property": "C64",
   "status": "proved",
   "theorems": [
    "Zune.c64_damage"
   ],
   "note": "baseline files, all options; the bytes that are unread after n strips may be replaced by anything"
  },
  {
   "property": "C65",
   "status": "partial",
   "theorems": [
    "Zune.c65_partial",
    "Zune.c65_cut_partial",
    "Zune.c65_bytes_partial",
    "Zune.c65_false",
    "Zune.c65_false_frame"
   ],
   "note": "c65_bytes_partial: arbitrary bytes, with a condition on what the headers say: one component, or three components of which luma is the first or which have no subsampling, sizes up to 65527, and no earlier frame header with larger factors (c65_partial, c65_cut_partial: the same for files given by their segments). Missing: luma in another position of subsampled images, a colour frame after a grayscale frame, progressive grayscale frames with factors that are more than sixteen times as high as wide. The code violates the rest (c65_false, c65_false_frame)"
  },
  {
   "property": "C66",
   "status": "partial",
   "theorems": [
    "Zune.c66_partial",
    "Zune.c66_black_partial",
    "Zune.c66_false"
   ],
   "note": "c66_partial: baseline files without strict mode and without frame headers inside the scan, sizes up to 65527, factors 1 and 2. c66_black_partial, c66_false: the code violates it for progressive files, whose images are black with any other factors than 1x1. All other factors give no image (c70_samplings)"
  },
  {
   "property": "C67",
   "status": "partial",
   "theorems": [
    "Zune.c67_gray_false",
    "Zune.c67_colour_false",
    "Zune.c67_false"
   ],
   "note": "The code violates it: for every valid progressive grayscale and YCbCr file without restart intervals, and every such segment, the result is the image of the scans before the segment, whatever follows, without an error (c67_gray_false, c67_colour_false); c67_false is a file whose image changes. DHT segments are covered by C58 and C61"
  },
  {
   "property": "C68",
   "status": "partial",
   "theorems": [
    "Zune.c68_ignored_false",
    "Zune.c68_false"
   ],
   "note": "The code violates it: a baseline scan is decoded as if it had all components whatever its header says (c68_ignored_false: all header segments, sizes, factors, tables and scan bytes, three components with ids 1, 2, 3, results other than errors), and c68_false is a valid image that decodes interleaved and is refused with a scan for each component. Missing: a statement about every such file"
  },
  {
   "property": "C69",
   "status": "partial",
   "theorems": [
    "Zune.c69_gray_partial",
    "Zune.c69_colour_partial",
    "Zune.c69_progressive_partial",
    "Zune.c69_modes_partial",
    "Zune.c69_progressive_colour_partial",
    "Zune.c69_progressive_luma_partial",
    "Zune.c69_progressive_formats_partial",
    "Zune.c69_zero_false"
   ],
   "note": "baseline and progressive files with one or three components, all sizes up to 65527, tables, positive steps and coefficients of 16 bits, any Huffman codes, scans, restart intervals (baseline) and output formats, under the conditions of C53, C55, C58 and C61; for progressive files the products are those of what the scans tell of the coefficients. Steps of zero, which T.81 does not allow, are different (c69_zero_false). Missing: RGB formats of subsampled progressive files with blocks that are only padding, restart intervals in progressive files"
  },
  {
   "property": "C70",
   "status": "proved",
   "theorems": [
    "Zune.c70_samplings"
   ],
   "note": ""
  },
  {
   "property": "C71",
   "status": "partial",
   "theorems": [
    "Zune.c71_headers",
    "Zune.c71_same_end",
    "Zune.c71_fails",
    "Zune.c71_bytes_partial",
    "Zune.c71_settles",
    "Zune.c71_file_partial",
    "Zune.c71_false"
   ],
   "note": "c71_headers: for arbitrary bytes exactly what reading the headers again does to the decoder; c71_same_end: for arbitrary bytes the second call ends as the first; c71_fails: the claim for all bytes whose headers cannot be read; c71_bytes_partial: the claim for all bytes for which reading again does nothing to the decoder; c71_settles: after the second time nothing changes; c71_file_partial: all images with luma as first component, and no Huffman tables before the frame header of progressive files. The rest are files for which reading again changes the decoder; there the code can violate the claim (c71_false)."
  },
  {
   "property": "C72",
   "status": "proved",
   "theorems": [
    "Zune.c72_tables"
   ],
   "note": ""
  },
  {
   "property": "C73",
   "status": "partial",
   "theorems": [
    "Zune.c73_scan_partial",
    "Zune.c73_progressive_partial",
    "Zune.c73_false",
    "Zune.c73_headers_false"
   ],
   "note": "c73_scan_partial: all files, the data up to the first marker that is not a restart marker, and the fill bytes before that marker. c73_progressive_partial: all scans of a progressive file. Missing: the headers, where the code takes a fill byte for a marker (c73_false, C03; c73_headers_false: no short file with one is decoded), and what follows the first other marker of a baseline file, which may be read more than once (C67)"
  },
  {
   "property": "C74",
   "status": "partial",
   "theorems": [
    "Zune.c74_headers",
    "Zune.c74_one",
    "Zune.c74_luma_partial",
    "Zune.c74_rgb_partial",
    "Zune.c74_false",
    "Zune.c74_flat_false"
   ],
   "note": "c74_headers, c74_one: all bytes, options, processors and formats. c74_luma_partial: arbitrary bytes, with the condition of C65 on the headers. c74_rgb_partial: the same with AVX2 for widths of 17 and more but for the last 31 columns, which the SIMD converters do not fill as they should (C38), and without 4:2:0 of four or more MCUs in a row, whose chroma may leave the range of a byte (C54). The code violates it for some widths (c74_false) and for RGB without AVX2 (c74_flat_false: flat blocks are not clamped, C26). Missing: headers for which decoding is not known not to panic, RGBA and RGBX (C39)"
  },
  {
   "property": "C75",
   "status": "proved",
   "theorems": [
    "Zune.c75_simd",
    "Zune.c75_headers",
    "Zune.c75_safe"
   ],
   "note": ""
  },
  {
   "property": "C76",
   "status": "proved",
   "theorems": [
    "Zune.c76_output",
    "Zune.c76_output_progressive",
    "Zune.c76_progressive",
    "Zune.c76_baseline",
    "Zune.c76_strips",
    "Zune.c76_growth"
   ],
   "note": "c76_growth: a frame header inside the scan data makes the buffers of later strips 64 times as large, so the bound of c76_baseline does not hold for them"
  },
  {
   "property": "C77",
   "status": "partial",
   "theorems": [
    "Zune.c77_planes_partial",
    "Zune.c77_gray_partial",
    "Zune.c77_mono_partial",
    "Zune.c77_progressive_partial"
   ],
   "note": "all baseline files of ColourJpeg.Valid and all progressive files of ProgColourJpeg.Valid that fit (c58_false), all three components, all samplings. Missing: files outside these (short restart intervals, several baseline scans, strips shorter than a step)."
  },
  {
   "property": "C78",
   "status": "partial",
   "theorems": [
    "Zune.c78_planes_partial",
    "Zune.c78_rgb_partial",
    "Zune.c78_progressive_partial",
    "Zune.c78_progressive_rgb_partial",
    "Zune.c78_false"
   ],
   "note": "false with AVX2 and half resolution in both directions (c78_false); proved for all other pixels of baseline and progressive files, but for the last 31 columns in RGB (C38) and RGB of progressive files with blocks that are only padding"
  },
  {
   "property": "C79",
   "status": "partial",
   "theorems": [
    "Zune.c79_ignored_false",
    "Zune.c79_false",
    "Zune.c79_usual_partial",
    "Zune.c79_planes_partial",
    "Zune.c79_gray_partial"
   ],
   "note": "baseline images without subsampling. The code goes by the position and ignores the identifiers (c79_ignored_false), so the claim is false (c79_false). c79_usual_partial: the usual order; c79_planes_partial: exactly which component ends where in the YCbCr output for every order; c79_gray_partial: luma first and grayscale output"
  },
  {
   "property": "C80",
   "status": "partial",
   "theorems": [
    "Zune.c80_luma_partial",
    "Zune.c80_chroma_partial",
    "Zune.c80_line_partial",
    "Zune.c80_rgb_partial",
    "Zune.c80_progressive_partial",
    "Zune.c80_gray_partial",
    "Zune.c80_gray_progressive_partial",
    "Zune.c80_false"
   ],
   "note": "false for chroma of half horizontal resolution at the ends of the rows, which are interpolated as one long line (c80_false). Proved: all pixels of grayscale files (c80_gray_partial, c80_gray_progressive_partial), luma of all colour files and chroma without horizontal subsampling depend on one block only (c80_luma_partial, c80_chroma_partial, c80_progressive_partial); chroma of half horizontal resolution inside the rows depends on the MCUs around the pixel (c80_line_partial, without the AVX2 code for half resolution in both directions); RGB output on the MCUs around the pixel in the same cases, but for the last 31 columns (c80_rgb_partial)"
  },
  {
   "property": "C81",
   "status": "partial",
   "theorems": [
    "Zune.c81_block_partial",
    "Zune.c81_gray_partial",
    "Zune.c81_progressive_partial",
    "Zune.c81_luma_partial",
    "Zune.c81_false"
   ],
   "note": "false for the scalar transform, whose shortcut for flat blocks does not clamp: white turns black (c81_false). Proved for both implementations of the transform and products up to 2048 (c81_block_partial), and, if with the scalar transform no flat block leaves the range of samples, for whole grayscale files (c81_gray_partial), progressive ones (c81_progressive_partial) and the luma of colour files (c81_luma_partial). Missing: products above 2048, where sums overflow (c56_large_false)"
  }
 ]
}