import Verif.Props.Accuracy
import Verif.Props.Approx
import Verif.Props.Between
import Verif.Props.Bits
import Verif.Props.Blocks
import Verif.Props.Brighter
import Verif.Props.Color
import Verif.Props.Colour
import Verif.Props.ColourExact
import Verif.Props.ColourPadding
import Verif.Props.ColourPixel
import Verif.Props.ColourRestart
import Verif.Props.ColourRgb
import Verif.Props.ColourTrip
import Verif.Props.Damage
import Verif.Props.Decode
import Verif.Props.Exact
import Verif.Props.FastTable
import Verif.Props.Fill
import Verif.Props.Formats
import Verif.Props.Gray
import Verif.Props.GrayFactors
import Verif.Props.Headers
import Verif.Props.Huffman
import Verif.Props.Idct
import Verif.Props.LateRestart
import Verif.Props.Limits
import Verif.Props.Locality
import Verif.Props.Memory
import Verif.Props.NoPanic
import Verif.Props.NoPanicBytes
import Verif.Props.Options
import Verif.Props.Order
import Verif.Props.Products
import Verif.Props.ProgColour
import Verif.Props.ProgExact
import Verif.Props.ProgProducts
import Verif.Props.Progressive
import Verif.Props.ReadTwice
import Verif.Props.Reuse
import Verif.Props.ReuseFiles
import Verif.Props.RoundTrip
import Verif.Props.Runs
import Verif.Props.Safety
import Verif.Props.Sampling
import Verif.Props.ScalarTrip
import Verif.Props.Scan
import Verif.Props.ScanHeader
import Verif.Props.Segments
import Verif.Props.Separate
import Verif.Props.Simd
import Verif.Props.Strips
import Verif.Props.TableOrder
import Verif.Props.Tables
import Verif.Props.Threads
import Verif.Props.Trailing
import Verif.Props.Upsample
import Verif.Props.Zigzag
/-! Axioms of every theorem named in MANIFEST.json. -/

#print axioms Zune.Spec.transparent_app_com
#print axioms Zune.c01_magic
#print axioms Zune.c02_decode
#print axioms Zune.c02_headers
#print axioms Zune.c03_false
#print axioms Zune.c03_info_partial
#print axioms Zune.c04_prefix
#print axioms Zune.c05_decode
#print axioms Zune.c05_headers
#print axioms Zune.c06_false
#print axioms Zune.c06_no_panic_partial
#print axioms Zune.c07_exact
#print axioms Zune.c07_rejects
#print axioms Zune.c07_strict_mode
#print axioms Zune.c08_limits
#print axioms Zune.c08_new
#print axioms Zune.c08_rejects
#print axioms Zune.c09_transparent
#print axioms Zune.c10_accepted_iff
#print axioms Zune.c10_dht
#print axioms Zune.c11_decode_symbol
#print axioms Zune.c12_prefix_free
#print axioms Zune.c13_exact_partial
#print axioms Zune.c13_false_magnitude
#print axioms Zune.c13_false_run
#print axioms Zune.c13_fast_ac_partial
#print axioms Zune.c13_sizes_partial
#print axioms Zune.c14_false
#print axioms Zune.c14_order_partial
#print axioms Zune.c15_reader
#print axioms Zune.c15_refilled_reads
#print axioms Zune.c16_fast_refill
#print axioms Zune.c16_refill_is_bytewise
#print axioms Zune.c17_bijection
#print axioms Zune.c17_extend
#print axioms Zune.c18_dc_partial
#print axioms Zune.c18_false
#print axioms Zune.c19_false
#print axioms Zune.c19_round_trip_partial
#print axioms Zune.c19_safe_chroma
#print axioms Zune.c19_safe_lum
#print axioms Zune.c20_ac_first
#print axioms Zune.c20_ac_refine
#print axioms Zune.c20_baseline
#print axioms Zune.c21_marker
#print axioms Zune.c21_marker_code
#print axioms Zune.c21_sync
#print axioms Zune.c22_colour_partial
#print axioms Zune.c22_encoder
#print axioms Zune.c22_false
#print axioms Zune.c22_gray_partial
#print axioms Zune.c22_late_false
#print axioms Zune.c23_band
#print axioms Zune.c23_step
#print axioms Zune.c24_false
#print axioms Zune.c24_refine_partial
#print axioms Zune.c25_first
#print axioms Zune.c25_rebuild
#print axioms Zune.c26_false
#print axioms Zune.c26_range_partial
#print axioms Zune.c27_false
#print axioms Zune.c27_flat_partial
#print axioms Zune.c28_agree_partial
#print axioms Zune.c28_false
#print axioms Zune.c29_layout
#print axioms Zune.c30_baseline
#print axioms Zune.c30_file
#print axioms Zune.c30_interleaved
#print axioms Zune.c30_single
#print axioms Zune.c31_false
#print axioms Zune.c31_horizontal_partial
#print axioms Zune.c32_false
#print axioms Zune.c32_sse_partial
#print axioms Zune.c33_vertical
#print axioms Zune.c34_jfif
#print axioms Zune.c35_simd
#print axioms Zune.c36_ycbcr
#print axioms Zune.c37_false
#print axioms Zune.c37_false_file
#print axioms Zune.c37_gray_partial
#print axioms Zune.c38_exact_partial
#print axioms Zune.c38_false
#print axioms Zune.c38_false_edge
#print axioms Zune.c38_false_file
#print axioms Zune.c38_narrow_partial
#print axioms Zune.c38_sse_false
#print axioms Zune.c38_sse_file
#print axioms Zune.c38_wide_partial
#print axioms Zune.c39_false
#print axioms Zune.c39_false_file
#print axioms Zune.c39_rgba_partial
#print axioms Zune.c40_false
#print axioms Zune.c40_length_partial
#print axioms Zune.c41_baseline
#print axioms Zune.c41_progressive
#print axioms Zune.c41_schedules
#print axioms Zune.c41_sequential
#print axioms Zune.c41_threads
#print axioms Zune.c42_colour_partial
#print axioms Zune.c42_factors_false
#print axioms Zune.c42_false
#print axioms Zune.c42_gray_partial
#print axioms Zune.c42_partial
#print axioms Zune.c43_scan_limit
#print axioms Zune.c44_false
#print axioms Zune.c44_lost
#print axioms Zune.c44_partial
#print axioms Zune.c44_progressive_partial
#print axioms Zune.c45_false
#print axioms Zune.c45_lost
#print axioms Zune.c45_partial
#print axioms Zune.c46_limits
#print axioms Zune.c46_observe_complete
#print axioms Zune.c46_options
#print axioms Zune.c46_threads_false
#print axioms Zune.c46_threads_partial
#print axioms Zune.c47_color
#print axioms Zune.c47_decode
#print axioms Zune.c47_false
#print axioms Zune.c47_hv
#print axioms Zune.c47_hv_false
#print axioms Zune.c47_idct_partial
#print axioms Zune.c47_sse
#print axioms Zune.c48_decode_partial
#print axioms Zune.c48_false
#print axioms Zune.c48_headers_partial
#print axioms Zune.c49_permutation
#print axioms Zune.c49_quant_table
#print axioms Zune.c49_table
#print axioms Zune.c50_dqt
#print axioms Zune.c51_scan_header
#print axioms Zune.c52_accepted_iff
#print axioms Zune.c52_frame_header
#print axioms Zune.c53_encoder_partial
#print axioms Zune.c53_gray_partial
#print axioms Zune.c54_avx_partial
#print axioms Zune.c54_false
#print axioms Zune.c54_hv_partial
#print axioms Zune.c55_encoder_partial
#print axioms Zune.c55_false
#print axioms Zune.c55_gray_partial
#print axioms Zune.c55_pixel_partial
#print axioms Zune.c55_planes_partial
#print axioms Zune.c55_rgb_partial
#print axioms Zune.c55_ycbcr_partial
#print axioms Zune.c56_accuracy_partial
#print axioms Zune.c56_large_false
#print axioms Zune.c57_energy
#print axioms Zune.c57_false
#print axioms Zune.c57_gray_partial
#print axioms Zune.c57_image_partial
#print axioms Zune.c57_round_trip_partial
#print axioms Zune.c58_false
#print axioms Zune.c58_gray_partial
#print axioms Zune.c58_restart_false
#print axioms Zune.c58_same_partial
#print axioms Zune.c59_both_partial
#print axioms Zune.c59_false_flat
#print axioms Zune.c59_false_rows
#print axioms Zune.c59_false_start
#print axioms Zune.c59_first_column_partial
#print axioms Zune.c59_grid_partial
#print axioms Zune.c59_horizontal_partial
#print axioms Zune.c59_in_place_partial
#print axioms Zune.c59_line_partial
#print axioms Zune.c59_vertical_partial
#print axioms Zune.c60_planes_partial
#print axioms Zune.c60_rgb_partial
#print axioms Zune.c60_scalar_partial
#print axioms Zune.c61_exact_partial
#print axioms Zune.c61_formats_partial
#print axioms Zune.c61_gray_partial
#print axioms Zune.c61_planes_partial
#print axioms Zune.c61_rgb_partial
#print axioms Zune.c61_same_partial
#print axioms Zune.c62_false
#print axioms Zune.c62_gray_partial
#print axioms Zune.c62_ycbcr_partial
#print axioms Zune.c63_baseline_partial
#print axioms Zune.c63_false
#print axioms Zune.c63_progressive_partial
#print axioms Zune.c63_unread_partial
#print axioms Zune.c64_damage
#print axioms Zune.c65_bytes_partial
#print axioms Zune.c65_cut_partial
#print axioms Zune.c65_false
#print axioms Zune.c65_false_frame
#print axioms Zune.c65_partial
#print axioms Zune.c66_black_partial
#print axioms Zune.c66_false
#print axioms Zune.c66_partial
#print axioms Zune.c67_colour_false
#print axioms Zune.c67_false
#print axioms Zune.c67_gray_false
#print axioms Zune.c68_false
#print axioms Zune.c68_ignored_false
#print axioms Zune.c69_colour_partial
#print axioms Zune.c69_gray_partial
#print axioms Zune.c69_modes_partial
#print axioms Zune.c69_progressive_colour_partial
#print axioms Zune.c69_progressive_formats_partial
#print axioms Zune.c69_progressive_luma_partial
#print axioms Zune.c69_progressive_partial
#print axioms Zune.c69_zero_false
#print axioms Zune.c70_samplings
#print axioms Zune.c71_bytes_partial
#print axioms Zune.c71_fails
#print axioms Zune.c71_false
#print axioms Zune.c71_file_partial
#print axioms Zune.c71_headers
#print axioms Zune.c71_same_end
#print axioms Zune.c71_settles
#print axioms Zune.c72_tables
#print axioms Zune.c73_false
#print axioms Zune.c73_headers_false
#print axioms Zune.c73_progressive_partial
#print axioms Zune.c73_scan_partial
#print axioms Zune.c74_false
#print axioms Zune.c74_flat_false
#print axioms Zune.c74_headers
#print axioms Zune.c74_luma_partial
#print axioms Zune.c74_one
#print axioms Zune.c74_rgb_partial
#print axioms Zune.c75_headers
#print axioms Zune.c75_safe
#print axioms Zune.c75_simd
#print axioms Zune.c76_baseline
#print axioms Zune.c76_growth
#print axioms Zune.c76_output
#print axioms Zune.c76_output_progressive
#print axioms Zune.c76_progressive
#print axioms Zune.c76_strips
#print axioms Zune.c77_gray_partial
#print axioms Zune.c77_mono_partial
#print axioms Zune.c77_planes_partial
#print axioms Zune.c77_progressive_partial
#print axioms Zune.c78_false
#print axioms Zune.c78_planes_partial
#print axioms Zune.c78_progressive_partial
#print axioms Zune.c78_progressive_rgb_partial
#print axioms Zune.c78_rgb_partial
#print axioms Zune.c79_false
#print axioms Zune.c79_gray_partial
#print axioms Zune.c79_ignored_false
#print axioms Zune.c79_planes_partial
#print axioms Zune.c79_usual_partial
#print axioms Zune.c80_chroma_partial
#print axioms Zune.c80_false
#print axioms Zune.c80_gray_partial
#print axioms Zune.c80_gray_progressive_partial
#print axioms Zune.c80_line_partial
#print axioms Zune.c80_luma_partial
#print axioms Zune.c80_progressive_partial
#print axioms Zune.c80_rgb_partial
#print axioms Zune.c81_block_partial
#print axioms Zune.c81_false
#print axioms Zune.c81_gray_partial
#print axioms Zune.c81_luma_partial
#print axioms Zune.c81_progressive_partial
#print axioms Zune.decodeDc_eq
#print axioms Zune.frame_of_sof
#print axioms Zune.idct_fdct
#print axioms Zune.places_component
#print axioms Zune.reachable_three
#print axioms Zune.strips_eq
