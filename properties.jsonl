{"id": "C01", "title": "Buffers that do not start with FF D8 are rejected untouched", "statement": "decode_buffer and read_headers return Err(IllegalMagicBytes(v)), v being the first two bytes read big-endian, whenever the buffer has at least two bytes and they are not FF D8; a shorter buffer gives Err(ExhaustedData). In both cases every later observation of the decoder (info, width, height, options) is what it was before the call.", "quantifier": "every byte buffer and every decoder state", "why_tests_cant": "65534 magic values times every suffix and every prior decoder state", "anchors": ["src/decoder.rs: Decoder::decode_headers_internal, decode_buffer, read_headers", "src/misc.rs: read_u16_be"]}
{"id": "C02", "title": "Accepted images respect the configured size limits", "statement": "If read_headers or decode_buffer on a new decoder returns Ok, then 0 < width() <= max_width and 0 < height() <= max_height for the options the decoder was built with.", "quantifier": "every byte buffer, every option set", "why_tests_cant": "the limit must hold for all header layouts, repeated frame headers and frame headers found inside the scan", "anchors": ["src/headers.rs: parse_start_of_frame", "src/decoder.rs: parse_marker_inner, decode_internal", "src/options.rs"]}
{"id": "C03", "title": "info() reports the frame header that is in the file", "statement": "After read_headers returns Ok on a new decoder, info() is Some, and the buffer contains, at some offset, FF C0 or FF C2 followed by a length, the byte 8, the reported height and width big-endian, the reported component count, and length = 8 + 3*components; width() and height() agree with info().", "quantifier": "every byte buffer", "why_tests_cant": "ties the reported numbers to bytes of an arbitrary file", "anchors": ["src/decoder.rs: info, width, height, ImageInfo", "src/headers.rs: parse_start_of_frame"]}
{"id": "C04", "title": "Header parsing looks only at the header", "statement": "If read_headers returns Ok after consuming n bytes, then replacing everything after byte n by anything (or nothing) gives the same result and the same decoder, and no proper prefix of the n consumed bytes is accepted.", "quantifier": "every buffer, every replacement tail, every truncation point", "why_tests_cant": "quantifies over all suffixes and all truncation points", "anchors": ["src/decoder.rs: decode_headers_internal, parse_marker_inner", "src/headers.rs", "src/misc.rs: read_byte, read_u16_be"]}
{"id": "C05", "title": "Decoding terminates on every input", "statement": "read_headers and decode_buffer terminate (with Ok, Err or a panic) on every buffer; the header loop runs at most once per input byte.", "quantifier": "every byte buffer, every decoder state", "why_tests_cant": "termination over all inputs cannot be sampled", "anchors": ["src/decoder.rs: decode_headers_internal", "src/headers.rs: parse_huffman, parse_dqt", "src/bitstream.rs", "src/mcu.rs", "src/mcu_prog.rs"]}
{"id": "C06", "title": "Header parsing never panics", "statement": "read_headers on a new decoder returns Ok or Err, never panics.", "quantifier": "every byte buffer, every option set", "why_tests_cant": "needs every table, count and index byte to be considered", "anchors": ["src/headers.rs: parse_huffman, parse_dqt, parse_start_of_frame, parse_sos", "src/huffman.rs: make_derived_table", "src/components.rs: Components::from"]}
{"id": "C07", "title": "Strict mode only rejects", "statement": "If decode_buffer (or read_headers) returns Ok in strict mode, the same call with strict mode off returns the same bytes and leaves the same image info.", "quantifier": "every byte buffer, every option set", "why_tests_cant": "relates two runs on every input", "anchors": ["src/decoder.rs: decode_headers_internal", "src/mcu.rs: decode_mcu_ycbcr_baseline", "src/mcu_prog.rs: finish_progressive_decoding", "src/options.rs: set_strict_mode"]}
{"id": "C08", "title": "Raising the limits does not change accepted images", "statement": "If read_headers returns Ok under some max_width/max_height/max_scans, it returns Ok with the same info under any larger limits; decode_buffer returns the same bytes.", "quantifier": "every byte buffer, every pair of ordered limits", "why_tests_cant": "relates two runs on every input", "anchors": ["src/headers.rs: parse_start_of_frame", "src/mcu_prog.rs: decode_mcu_ycbcr_progressive", "src/options.rs"]}
{"id": "C09", "title": "Application and comment segments are transparent", "statement": "Inserting, between two header segments of a file, a segment FF m len payload whose marker is APPn, COM or unknown to the decoder changes neither the result of decode_buffer nor the decoder state (strict mode off).", "quantifier": "every file, every insertion point after a complete list of segments, every skippable marker, every payload", "why_tests_cant": "insertion point, payload and remainder are unbounded", "anchors": ["src/decoder.rs: decode_headers_internal, parse_marker_inner", "src/marker.rs: from_u8"]}
{"id": "C10", "title": "A Huffman table is accepted exactly when its code exists", "statement": "HuffmanTable construction succeeds exactly when the canonical assignment of T.81 Annex C gives every symbol a code of its length that is not all ones (and, for DC tables, all symbols are at most 15); otherwise the file is rejected with HuffmanDecode.", "quantifier": "every list of 16 counts with sum at most 256, every symbol list", "why_tests_cant": "256^16 count vectors", "anchors": ["src/huffman.rs: HuffmanTable::new, make_derived_table", "src/headers.rs: parse_huffman"]}
{"id": "C11", "title": "Symbol decoding picks the one code word that prefixes the stream", "statement": "For every accepted table and every 16 bit window of the stream: if some code word is a prefix of the window the decoder returns that word's symbol and consumes exactly its length; if none is, decoding fails with HuffmanDecode. The 9 bit lookup and the slow path agree with this in every case.", "quantifier": "every accepted table, every window", "why_tests_cant": "all tables x 65536 windows", "anchors": ["src/bitstream.rs: decode_huff!", "src/huffman.rs: make_derived_table (lookup, maxcode, offset)"]}
{"id": "C12", "title": "Accepted Huffman tables are uniquely decodable", "statement": "The code words of an accepted table are pairwise non-prefix, so at most one symbol matches any stream.", "quantifier": "every accepted table", "why_tests_cant": "all tables", "anchors": ["src/huffman.rs: make_derived_table"]}
{"id": "C13", "title": "The combined AC table agrees with decode-then-extend", "statement": "For every accepted AC table, whenever the one-step AC entry for a 9 bit window is used, it yields the same run, value and consumed length as decoding the symbol and then reading and extending its magnitude bits.", "quantifier": "every accepted AC table, every 9 bit window", "why_tests_cant": "all tables x all windows; the wrong entries need short codes with large magnitudes", "anchors": ["src/huffman.rs: make_derived_table (fast_ac)", "src/bitstream.rs: decode_mcu_block, decode_mcu_ac_first"]}
{"id": "C14", "title": "Order of DHT and SOF segments does not matter", "statement": "Exchanging a DHT segment and the frame header that follows it does not change the decoded image.", "quantifier": "every file with the two segments adjacent", "why_tests_cant": "relates two runs on every file", "anchors": ["src/headers.rs: parse_huffman", "src/decoder.rs: parse_marker_inner (is_progressive)", "src/huffman.rs: make_derived_table"]}
{"id": "C15", "title": "The bit reader delivers exactly the unstuffed bits", "statement": "As long as the scan data is not exhausted, the bits obtained by any sequence of refills, peeks and reads are the bits of the scan bytes in order, most significant first, with FF 00 standing for FF and fill FF bytes before 00 removed, independently of how refills are interleaved.", "quantifier": "every byte sequence, every sequence of reader operations", "why_tests_cant": "all byte strings and all refill schedules", "anchors": ["src/bitstream.rs: refill, peek_bits, drop_bits, get_bits, get_bit, read_u8"]}
{"id": "C16", "title": "The four byte refill fires only when no byte is FF", "statement": "The word test used by the fast refill is true exactly when one of the four bytes is FF, and then the fast refill would leave the reader in the same state as four single byte refills.", "quantifier": "every 32 bit word, every reader state", "why_tests_cant": "2^32 words x states", "anchors": ["src/bitstream.rs: has_byte, has_zero, refill"]}
{"id": "C17", "title": "Magnitude extension follows T.81 F.2.2.1", "statement": "For every size s in 1..15 and every s bit value, the decoded difference is v if v >= 2^(s-1) and v - 2^s + 1 otherwise; the map is a bijection onto the values of magnitude class s.", "quantifier": "every s and every s bit value", "why_tests_cant": "exhaustive but stated as the standard's law and inverted by the encoder", "anchors": ["src/bitstream.rs: huff_extend"]}
{"id": "C18", "title": "DC differences are read correctly", "statement": "For every accepted DC table and every stream holding a code word followed by its magnitude bits, decoding adds exactly the encoded difference to the prediction and consumes exactly those bits.", "quantifier": "every table, symbol, difference, and every alignment of the bit buffer", "why_tests_cant": "depends on how many bits happen to be buffered", "anchors": ["src/bitstream.rs: decode_dc"]}
{"id": "C19", "title": "Block round trip", "statement": "Encoding the AC coefficients of a block per T.81 F.1.2 with a Huffman table and decoding the bits gives back the coefficients in natural order and leaves the reader exactly after them.", "quantifier": "every coefficient block, every accepted table with the needed symbols, every continuation of the stream", "why_tests_cant": "unbounded family of blocks, tables and alignments", "anchors": ["src/bitstream.rs: decode_mcu_block", "src/misc.rs: UN_ZIGZAG"]}
{"id": "C20", "title": "Block decoding is total", "statement": "On any bytes whatsoever, decoding a block (baseline, AC first, AC refinement) with accepted tables stops within 64 symbols, returns Ok or Err, never indexes out of bounds, and only changes coefficients of that block.", "quantifier": "every byte stream, every reader state, every accepted table", "why_tests_cant": "adversarial streams", "anchors": ["src/bitstream.rs: decode_mcu_block, decode_mcu_ac_first, decode_mcu_ac_refine"]}
{"id": "C21", "title": "Markers in scan data are recognised, never decoded", "statement": "A refill that reaches FF followed by a byte other than 00 and FF records that marker, delivers no bit of it, and consumes the stream exactly to the byte after it; a marker value the library does not know makes the call return Err.", "quantifier": "every scan byte sequence and buffer state", "why_tests_cant": "position of the marker relative to refills is unbounded", "anchors": ["src/bitstream.rs: refill", "src/marker.rs: from_u8"]}
{"id": "C22", "title": "Restart intervals", "statement": "With a restart interval of n, the DC predictions and bit reader are reset after every n MCUs and only there.", "quantifier": "every image, interval and component count", "why_tests_cant": "depends on the whole history of the scan", "anchors": ["src/mcu.rs: handle_rst, decode_mcu_ycbcr_baseline", "src/mcu_prog.rs: parse_entropy_coded_data"]}
{"id": "C23", "title": "End-of-band runs skip exactly the stated number of blocks", "statement": "In a progressive AC scan an end-of-band run of r blocks moves the raster position forward by exactly r blocks, for every image width and every run length.", "quantifier": "every width, position and run length", "why_tests_cant": "unbounded arithmetic", "anchors": ["src/mcu_prog.rs: parse_entropy_coded_data"]}
{"id": "C24", "title": "AC refinement only refines", "statement": "A refinement scan changes only coefficients in its spectral band; a non-zero coefficient changes by 0 or by one unit of the current bit away from zero, at most once, and a zero coefficient becomes 0 or plus/minus that bit.", "quantifier": "every block, stream, band and bit position", "why_tests_cant": "all blocks and adversarial streams", "anchors": ["src/bitstream.rs: decode_mcu_ac_refine"]}
{"id": "C25", "title": "DC successive approximation rebuilds the value", "statement": "Decoding a DC coefficient first at point transform Al and then by refinement scans Al-1 .. 0 yields the original 16 bit value.", "quantifier": "every value and every Al in 0..13", "why_tests_cant": "composition of scans", "anchors": ["src/bitstream.rs: decode_prog_dc_first, decode_prog_dc_refine"]}
{"id": "C26", "title": "IDCT output is a sample", "statement": "Every value produced by the inverse DCT lies in 0..255, whatever the coefficients and quantisation table.", "quantifier": "every block, every table, both implementations", "why_tests_cant": "2^1024 blocks", "anchors": ["src/idct/scalar.rs: dequantize_and_idct_int", "src/idct/avx2.rs: dequantize_and_idct_int_avx2"]}
{"id": "C27", "title": "The flat-block shortcut agrees with the full IDCT", "statement": "For a block whose AC coefficients are all zero the shortcut writes the same samples as the general algorithm.", "quantifier": "every DC coefficient and quantiser", "why_tests_cant": "all DC x quantiser pairs, wrap-around included", "anchors": ["src/idct/scalar.rs: dequantize_and_idct_int", "src/idct/avx2.rs"]}
{"id": "C28", "title": "AVX2 and scalar IDCT agree", "statement": "The AVX2 implementation returns bit-identical samples to the scalar one (module documentation), so set_use_unsafe does not change the image.", "quantifier": "every block, every table", "why_tests_cant": "unit tests use symmetric blocks only", "anchors": ["src/idct/avx2.rs: dequantize_and_idct_int_avx2, transpose", "src/idct/scalar.rs", "src/unsafe_utils.rs"]}
{"id": "C29", "title": "IDCT blocks land in raster order", "statement": "For a component row group of b blocks, sample (r,c) of block k is stored at row r, column 8k+c of the plane, every plane position is written exactly once, and nothing is written outside.", "quantifier": "every number of blocks, every block content", "why_tests_cant": "unbounded widths", "anchors": ["src/idct/scalar.rs: dequantize_and_idct_int", "src/worker.rs: post_process"]}
{"id": "C30", "title": "Decoded blocks never overwrite each other", "statement": "In each MCU row group and for each supported sampling (1x1, 2x1, 1x2, 2x2) the place of every data unit is inside the component buffer, distinct data units get distinct places, and all places are used.", "quantifier": "every image size and sampling mode", "why_tests_cant": "unbounded sizes", "anchors": ["src/mcu.rs: decode_mcu_ycbcr_baseline", "src/mcu_prog.rs: parse_entropy_coded_data"]}
{"id": "C31", "title": "Horizontal upsampling is the triangle filter", "statement": "Scalar horizontal upsampling of n samples gives 2n samples; sample 2i and 2i+1 are (3 a + b + 2)/4 with a = in[i] and b its left or right neighbour (ends copied); every output lies between the two samples it mixes; constant rows stay constant.", "quantifier": "every input length and content", "why_tests_cant": "unbounded rows", "anchors": ["src/upsampler/scalar.rs: upsample_horizontal"]}
{"id": "C32", "title": "SSE and scalar horizontal upsampling agree", "statement": "upsample_horizontal_sse returns the same row as upsample_horizontal.", "quantifier": "every row", "why_tests_cant": "unit tests use linear ramps only, where the difference vanishes", "anchors": ["src/upsampler/sse.rs: upsample_horizontal_sse_u", "src/upsampler/scalar.rs"]}
{"id": "C33", "title": "Vertical upsampling", "statement": "Vertical upsampling of 8 rows gives 16 rows; each output row is a fixed 3:1 mix of two neighbouring input rows, lies between them, and constant columns stay constant.", "quantifier": "every width and content", "why_tests_cant": "unbounded rows", "anchors": ["src/upsampler/scalar.rs: upsample_vertical, upsample_hv"]}
{"id": "C34", "title": "Colour conversion is within 2 of the JFIF formula", "statement": "For all samples Y, Cb, Cr in 0..255 the RGB bytes written differ by at most 2 from the exact JFIF conversion clamped to 0..255; Cb = Cr = 128 gives R = G = B = Y; no intermediate i16 overflows.", "quantifier": "all 2^24 colour triples", "why_tests_cant": "16.7 million triples, and the bound is against real numbers", "anchors": ["src/color_convert/scalar.rs: ycbcr_to_rgb_16_scalar, ycbcr_to_rgba_16_scalar, clamp"]}
{"id": "C35", "title": "SIMD and scalar colour conversion agree", "statement": "The SSE and AVX2 converters write the same bytes as the scalar ones for every i16 input, and the 4 byte ones write R,G,B,255 per pixel.", "quantifier": "all i16 triples in all 16 lanes", "why_tests_cant": "2^768 register contents; lane shuffles", "anchors": ["src/color_convert/avx.rs", "src/color_convert/sse.rs", "src/color_convert/scalar.rs"]}
{"id": "C36", "title": "YCbCr output places every sample", "statement": "With YCbCr output, byte 3*(r*width+x)+c of each output strip is sample (r,x) of component c, padding columns are dropped, and nothing else is written.", "quantifier": "every width, every plane content", "why_tests_cant": "unbounded widths", "anchors": ["src/color_convert/scalar.rs: ycbcr_to_ycbcr", "src/worker.rs: post_process_inner"]}
{"id": "C37", "title": "Grayscale output places every sample", "statement": "With grayscale output, byte r*width+x of each strip is luma sample (r,x) and padding columns are dropped, for every image width.", "quantifier": "every width, every plane content", "why_tests_cant": "depends on width modulo 8 and on small widths", "anchors": ["src/color_convert/scalar.rs: ycbcr_to_grayscale"]}
{"id": "C38", "title": "RGB output places every pixel", "statement": "With RGB output, bytes 3*(r*width+x)..+2 of each strip are the conversion of the samples at (r,x), for every image width.", "quantifier": "every width, every plane content", "why_tests_cant": "the right edge depends on width modulo 16; tests only write files", "anchors": ["src/worker.rs: color_convert_ycbcr"]}
{"id": "C39", "title": "RGBA and RGBX output is four bytes per pixel with opaque alpha", "statement": "With out_colorspace RGBA, pixel (r,x) occupies bytes 4*(r*width+x)..+3 and the fourth byte is 255.", "quantifier": "every image with RGBA output", "why_tests_cant": "whole image property", "anchors": ["src/decoder.rs: Decoder::default (color_convert_16)", "src/worker.rs: color_convert_ycbcr", "src/color_convert.rs: choose_ycbcr_to_rgb_convert_func"]}
{"id": "C40", "title": "Output length", "statement": "If decode_buffer returns Ok(v) then v.len() = width() * height() * number of output channels.", "quantifier": "every byte buffer, every option set", "why_tests_cant": "every image, including images whose header changes while decoding", "anchors": ["src/mcu.rs: decode_mcu_ycbcr_baseline", "src/mcu_prog.rs: finish_progressive_decoding"]}
{"id": "C41", "title": "Thread count and scheduling do not change the image", "statement": "Every interleaving of the worker jobs' writes produces the same output buffer as running them one after the other, for any number of threads.", "quantifier": "every number of threads and every interleaving", "why_tests_cant": "schedules", "anchors": ["src/mcu.rs: decode_mcu_ycbcr_baseline (scope.execute)", "src/mcu_prog.rs: finish_progressive_decoding"]}
{"id": "C42", "title": "A reused decoder behaves like a new one", "statement": "decode_buffer on a decoder that has already been used returns what a new decoder with the same options returns.", "quantifier": "every history of calls and every buffer", "why_tests_cant": "histories", "anchors": ["src/decoder.rs: Decoder", "src/headers.rs: parse_start_of_frame"]}
{"id": "C43", "title": "The scan limit is enforced", "statement": "If a progressive image decodes to Ok, the number of scans decoded is at most max(1, max_scans).", "quantifier": "every byte buffer, every max_scans", "why_tests_cant": "unbounded number of scans", "anchors": ["src/mcu_prog.rs: decode_mcu_ycbcr_progressive", "src/options.rs: set_max_scans"]}
{"id": "C44", "title": "All MCU rows of an image are decoded", "statement": "For every image size and sampling the rows of MCUs decoded and post-processed cover the whole height of the image.", "quantifier": "every height and sampling", "why_tests_cant": "depends on the parity of the number of MCU rows", "anchors": ["src/mcu.rs: decode_mcu_ycbcr_baseline", "src/mcu_prog.rs: finish_progressive_decoding"]}
{"id": "C45", "title": "Output strips are available for every MCU row", "statement": "For every width and height within the limits and every supported sampling, the output buffer holds at least as many strips as there are MCU rows to be written, so decoding does not panic for lack of space.", "quantifier": "every width, height and sampling", "why_tests_cant": "two-dimensional arithmetic over all sizes", "anchors": ["src/mcu.rs: decode_mcu_ycbcr_baseline (chunks.next().unwrap())"]}
{"id": "C46", "title": "Options are independent and remembered", "statement": "Each set_ method of ZuneJpegOptions is read back by its get_ method and leaves every other option unchanged; set_num_threads rejects 0 and otherwise succeeds.", "quantifier": "every option set and every value", "why_tests_cant": "all combinations; usize to u32 conversion", "anchors": ["src/options.rs", "src/decoder.rs: set_num_threads, set_limits, set_output_colorspace, rgba"]}
{"id": "C47", "title": "Unchecked SIMD accesses stay inside their slices", "statement": "For every input accepted by the functions' checks, every unchecked load or store of upsample_horizontal_sse, the IDCT and the colour converters lies inside the slice it is taken from.", "quantifier": "every slice length", "why_tests_cant": "out of bounds reads need not crash a test", "anchors": ["src/upsampler/sse.rs", "src/color_convert/sse.rs", "src/color_convert/avx.rs", "src/idct/avx2.rs"]}
{"id": "C48", "title": "Only baseline and progressive Huffman frames are decoded", "statement": "decode_buffer on a new decoder returns Ok only if the buffer contains an SOF0 or SOF2 marker; files whose frame marker is any other SOFn are rejected.", "quantifier": "every byte buffer", "why_tests_cant": "all files", "anchors": ["src/marker.rs: from_u8", "src/decoder.rs: parse_marker_inner", "src/headers.rs: parse_sos"]}
{"id": "C49", "title": "Zig-zag order is a permutation", "statement": "Writing coefficient k to position UN_ZIGZAG[k] fills each of the 64 positions once and follows the T.81 zig-zag scan; a quantisation table read from a file has its k-th value at that position.", "quantifier": "all 64 positions, every table content", "why_tests_cant": "table contents are arbitrary", "anchors": ["src/misc.rs: UN_ZIGZAG", "src/headers.rs: un_zig_zag, parse_dqt"]}
{"id": "C50", "title": "DQT segments", "statement": "A DQT segment made of any number of 8 bit tables with destinations 0..3 is accepted and leaves each destination holding the last table given for it and other destinations unchanged; a truncated, 16 bit or out-of-range table is rejected.", "quantifier": "every list of tables", "why_tests_cant": "unbounded segment contents", "anchors": ["src/headers.rs: parse_dqt"]}
{"id": "C51", "title": "Scan headers are validated", "statement": "If the scan header is accepted then it names 1 to 3 distinct components that exist in the frame, its length field is 6 + 2n, and both successive approximation values are at most 13.", "quantifier": "every byte buffer and decoder state", "why_tests_cant": "all header bytes", "anchors": ["src/headers.rs: parse_sos"]}
{"id": "C52", "title": "Frame components are validated", "statement": "If the frame header is accepted, every component has id 1..3, power of two sampling factors, a quantiser index below 4 whose table was defined, and the number of components equals the count reported by info().", "quantifier": "every byte buffer and decoder state", "why_tests_cant": "all header bytes", "anchors": ["src/headers.rs: parse_start_of_frame", "src/components.rs: Components::from"]}
{"id": "C53", "title": "Grayscale images decode to their samples", "statement": "For a baseline single component image given as coefficients, tables and size, the file formed by standard segments and entropy coding decodes to the IDCT of the coefficients, cropped to the image size.", "quantifier": "every width, height, coefficient data and tables (within the stated conditions)", "why_tests_cant": "end-to-end, unbounded", "anchors": ["src/decoder.rs: decode_buffer", "src/mcu.rs", "src/bitstream.rs", "src/worker.rs", "src/idct/scalar.rs"]}
{"id": "C54", "title": "AVX2 and scalar 2x2 upsampling agree", "statement": "For every chroma plane of a strip (128 samples per MCU column) the AVX2 upsampler for 2x2 subsampling returns the same samples as the scalar one.", "quantifier": "every plane and every width", "why_tests_cant": "vectorised boundary handling over unbounded widths", "anchors": ["src/upsampler/avx2.rs: upsample_hv_simd", "src/upsampler/avx2.rs: upsample_hv_avx", "src/upsampler/scalar.rs: upsample_hv"]}
{"id": "C55", "title": "Colour images decode every data unit", "statement": "For a baseline image with several components, every data unit of every component that the entropy coded segment holds is decoded and contributes to the image; bytes between the last data unit and EOI make no difference.", "quantifier": "every image with several components and every amount of filling before EOI", "why_tests_cant": "depends on how far the bit reader has prefetched when a component ends, over unbounded streams", "anchors": ["src/mcu.rs: decode_mcu_ycbcr_baseline", "src/bitstream.rs: refill"]}
{"id": "C56", "title": "The inverse DCT is accurate", "statement": "Every sample produced by the inverse DCT differs from the T.81 A.3.3 inverse DCT with exact cosines, level shifted and clamped, by at most 0.63 + E/2048, E being the Euclidean norm of the dequantised coefficients (at most 1024 for coefficients of 8-bit samples).", "quantifier": "every block of coefficients and quantisation table with products up to 2048, both implementations", "why_tests_cant": "a bound over all 64-dimensional coefficient blocks", "anchors": ["src/idct/scalar.rs: dequantize_and_idct_int", "src/idct/avx2.rs: dequantize_and_idct_avx2"]}
{"id": "C57", "title": "Encoding and decoding an image loses no more than quantisation does", "statement": "Any grayscale image, transformed by the T.81 forward DCT, quantised with any table and entropy coded into a file, is decoded to samples that differ from the original ones by at most 1.13 + 1.0005*Q, Q being half the Euclidean norm of the quantisation table.", "quantifier": "every size, image, quantisation table and restart interval", "why_tests_cant": "all images; end-to-end from bytes to samples", "anchors": ["src/decoder.rs: decode_buffer", "src/mcu.rs", "src/bitstream.rs", "src/worker.rs", "src/idct"]}
{"id": "C58", "title": "Progressive images decode to what their scans say", "statement": "A progressive grayscale file decodes to the samples of the inverse transforms of its coefficients as far as its scans give them, whatever the script of first and refinement scans of the DC coefficients and bands, the end-of-band runs, and the tables; if the scans are complete it decodes to the same image as a baseline file with the same coefficients.", "quantifier": "every size, scan script, code, run and coefficients", "why_tests_cant": "the scripts are unbounded, and every scan depends on what all earlier ones left in the coefficient buffer", "anchors": ["src/mcu_prog.rs: decode_mcu_ycbcr_progressive, parse_entropy_coded_data, get_marker", "src/bitstream.rs: decode_prog_dc_first, decode_prog_dc_refine, decode_mcu_ac_first, decode_mcu_ac_refine", "src/headers.rs: parse_sos, parse_huffman, parse_start_of_frame"]}
{"id": "C59", "title": "Chroma samples are upsampled in place", "statement": "In an image with subsampled chroma, the chroma value of every pixel lies between the smallest and the largest chroma samples that are at most one row and one column away from the sample that covers the pixel.", "quantifier": "every size, subsampling, coefficients and pixel", "why_tests_cant": "depends on the position in the strip, on the row ends and on the vector width; images with little colour detail hide it", "anchors": ["src/upsampler/scalar.rs", "src/upsampler/sse.rs", "src/upsampler/avx2.rs", "src/mcu.rs: decode_mcu_ycbcr_baseline", "src/worker.rs: post_process_inner"]}
{"id": "C60", "title": "An RGB image survives encoding and decoding", "statement": "Any RGB image, converted to YCbCr as JFIF says, transformed, quantised with any tables and entropy coded without subsampling into a file, is decoded to RGB such that every channel of every pixel differs from the original by at most 3 + E_Y + 1.772*E_C, E being 1.13 + 1.0005*Q with Q half the Euclidean norm of the quantisation table of the component.", "quantifier": "every size, image and pair of quantisation tables", "why_tests_cant": "all images; end-to-end from bytes to pixels, through entropy coding, transform, placement and colour conversion", "anchors": ["src/decoder.rs: decode_buffer", "src/mcu.rs: decode_mcu_ycbcr_baseline", "src/bitstream.rs: decode_mcu_block", "src/worker.rs: post_process_inner", "src/idct/avx2.rs", "src/color_convert/avx.rs"]}
{"id": "C61", "title": "Progressive colour images decode to what their scans say", "statement": "A progressive YCbCr file decodes to the samples of the inverse transforms of the coefficients of all components as far as its scans give them, whatever the script of interleaved and single-component, first and refinement scans, the end-of-band runs, and the tables; its image is that of the baseline file with the same coefficients, subsampled or not.", "quantifier": "every size, sampling factors of the luma component, scan script, code, run and coefficients", "why_tests_cant": "the scripts are unbounded; single-component scans and interleaved scans visit different numbers of blocks in different orders, and sizes decide where they differ", "anchors": ["src/mcu_prog.rs: decode_mcu_ycbcr_progressive, parse_entropy_coded_data, finish_progressive_decoding", "src/bitstream.rs: decode_prog_dc_first, decode_prog_dc_refine, decode_mcu_ac_first, decode_mcu_ac_refine", "src/headers.rs: parse_sos, parse_start_of_frame", "src/worker.rs: post_process"]}
{"id": "C62", "title": "Blocks outside the image do not change it", "statement": "Blocks that only fill up the last MCUs of a row or a column, and contain no pixel of the image, do not influence the output: two files with the same blocks elsewhere decode to the same bytes, whatever the padding blocks hold.", "quantifier": "every size, sampling factors, tables, pair of files that differ in padding blocks only, output format, options and CPU", "why_tests_cant": "the padding of a test image is what one encoder writes (mostly copies of the edge); the claim is about all contents of the padding, for all sizes and samplings", "anchors": ["src/worker.rs: post_process", "src/color_convert/avx.rs: ycbcr_to_rgb_avx2", "src/color_convert/scalar.rs", "src/mcu.rs: decode_mcu_ycbcr_baseline"]}
{"id": "C63", "title": "What follows the end of the image does not matter", "statement": "If a file is decoded, the same file with any bytes appended is decoded to the same image.", "quantifier": "every file, appended bytes, options and CPU", "why_tests_cant": "the refill of the bit buffer reads ahead; whether it ever takes bytes behind the end of image marker depends on where in the buffer the marker falls, for every file", "anchors": ["src/bitstream.rs: refill, decode_mcu_block", "src/mcu.rs: decode_mcu_ycbcr_baseline", "src/mcu_prog.rs: decode_mcu_ycbcr_progressive, get_marker", "src/decoder.rs: decode_buffer"]}
{"id": "C64", "title": "Damage does not reach the rows decoded before it", "statement": "If two baseline files differ only in bytes that the decoder has not read after the first n rows of MCUs, and both are decoded, the first n rows of MCUs of their images are the same.", "quantifier": "every file, n, change to the unread bytes (of any length, including cutting the file off), options, CPU", "why_tests_cant": "all damages of all files; the upsamplers and worker jobs of later rows must not write into earlier ones", "anchors": ["src/mcu.rs: decode_mcu_ycbcr_baseline", "src/worker.rs: post_process", "src/bitstream.rs: refill"]}
{"id": "C65", "title": "Decoding never panics", "statement": "decode_buffer returns Ok or Err on every byte sequence; it never indexes out of range, unwraps None, or divides by zero, and it terminates.", "quantifier": "every file of complete header segments (any contents of tables, application data, restart interval), every frame of one or three components, every bytes after the scan marker, all options, CPU", "why_tests_cant": "the panic depends on combinations of size, sampling factors, output colour space and arbitrary entropy-coded bytes; fuzzing samples them", "anchors": ["src/decoder.rs: decode_buffer", "src/headers.rs: parse_*", "src/mcu.rs: decode_mcu_ycbcr_baseline", "src/mcu_prog.rs: decode_mcu_ycbcr_progressive", "src/worker.rs: post_process"]}
{"id": "C66", "title": "The sampling factors of a single component do not matter", "statement": "A grayscale file decodes to the same image whatever the sampling factors of its one component are (ITU-T T.81 A.2.2: a scan of one component is not interleaved, and the factors are relative to those of the other components).", "quantifier": "every size, every tables and headers, every bytes of scan, factors 1 and 2 in each direction, baseline and progressive", "why_tests_cant": "grayscale files with factors other than 1x1 are rare, and an image of one colour or one row may look right by chance; the claim relates two decodings for every scan, damaged ones included", "anchors": ["src/mcu.rs:171-196", "src/mcu_prog.rs:132-192", "src/headers.rs: parse_start_of_frame"]}
{"id": "C67", "title": "Segments between scans do not change the image", "statement": "A comment, an application segment or a table that no later scan uses, placed between two scans of a progressive image, does not change the decoded image (ITU-T T.81 B.2.4: tables and miscellaneous segments may stand before every scan header).", "quantifier": "every valid progressive file, every segment, every position between scans", "why_tests_cant": "progressive test files have at most DHT between scans, and a file cut at a comment still decodes to a plausible, coarser image without an error", "anchors": ["src/mcu_prog.rs:56-125", "src/decoder.rs: parse_marker_inner"]}
{"id": "C68", "title": "Baseline images may have one scan per component", "statement": "A baseline image whose components are coded in separate scans decodes to the same image as with all components in one scan (ITU-T T.81 A.2.2, B.2.3: the scan header names the components of the scan).", "quantifier": "every size, sampling factors, tables and coefficients; every scan header", "why_tests_cant": "encoders in use write interleaved baseline scans, so corpora contain no others; that the header is ignored is a statement about every file", "anchors": ["src/mcu.rs: decode_mcu_ycbcr_baseline", "src/headers.rs: parse_sos"]}
{"id": "C69", "title": "Only the products of coefficients and quantisation steps matter", "statement": "Two images, baseline or progressive, of the same size and sampling whose quantised coefficients times quantisation steps agree decode to the same image, whatever the tables, scans, Huffman codes and restart intervals (ITU-T T.81 A.3.4, A.3.3).", "quantifier": "every size, sampling, pair of tables and coefficients with the same products, every output format", "why_tests_cant": "the decoder has shortcuts that look at the quantised coefficients and arithmetic that wraps in 16 and 32 bits; only a proof covers all factorisations of all products", "anchors": ["src/idct/scalar.rs: dequantize_and_idct_int", "src/idct/avx2.rs: dequantize_and_idct_int_avx2", "src/worker.rs"]}
{"id": "C70", "title": "Only the four usual samplings are decoded", "statement": "If decoding a file gives an image, then the sampling factors in its frame header are those of 4:4:4, 4:2:2, 4:4:0 or 4:2:0: luma factors 1 or 2 in each direction and 1 for all other components. All other factors are refused, for grayscale, baseline and progressive files alike.", "quantifier": "every file with one frame header whose first component and no other is luma, every number of components, every other segments and scan bytes, every options and CPU", "why_tests_cant": "256 values of each factor byte and every combination over the components; frame headers inside scans could raise the factors after the check", "anchors": ["src/decoder.rs: check_component_dimensions, set_upsampling", "src/mcu.rs:139-169", "src/mcu_prog.rs:132-168"]}
{"id": "C71", "title": "Reading the headers first changes nothing", "statement": "Calling read_headers on a file and then decode_buffer on the same file with the same decoder gives what decode_buffer alone gives, however often the headers were read.", "quantifier": "every file, every options and CPU, every number of calls of read_headers", "why_tests_cant": "the second run starts from every state the first can leave; the tables, strides and factors left over matter only for particular orders of segments and components", "anchors": ["src/decoder.rs:452-458 read_headers", "src/decoder.rs:178-181 decode_buffer", "src/headers.rs:29-127, 224-372"]}
{"id": "C72", "title": "Tables may come in any order and in any segments", "statement": "The quantisation tables, Huffman tables and restart interval before the scan header may come in any order, split over any number of segments, repeated and mixed with skipped segments: only the last table given for each destination and the last restart interval matter.", "quantifier": "every two sequences of DQT, DHT, DRI and skipped segments with the same last tables and interval, of any length, every decoder state, everything before and after them", "why_tests_cant": "the sequences and the tables in them are unbounded in number; a table lost or overwritten shows only for particular orders and repetitions", "anchors": ["src/headers.rs:18-121 parse_huffman", "src/headers.rs:125-196 parse_dqt", "src/decoder.rs:304-412 parse_marker_inner"]}
{"id": "C73", "title": "Fill bytes and the numbers of restart markers do not matter", "statement": "Any number of fill bytes FF may precede a marker, and the number of a restart marker is not looked at: two files that differ only in this are decoded to the same image, or neither is decoded.", "quantifier": "every decoder state, all headers, all scan data (of any length, with any number of markers, fill bytes and scans), valid or not", "why_tests_cant": "the number and places of the fill bytes are unbounded, and where a refill of the bit reader meets them depends on all bits before", "anchors": ["src/bitstream.rs:159-261 refill", "src/mcu.rs:386-418 handle_rst", "src/mcu_prog.rs:84-126", "src/mcu_prog.rs:436-475 get_marker"]}
{"id": "C74", "title": "The output formats agree", "statement": "The output format changes nothing but the format: reading the headers gives the same result and the same information, a file is decoded for one format if and only if it is for the other, a grayscale image is the luma plane of the YCbCr image, an RGB image is the pixelwise conversion of the YCbCr image, and an image with one component is the same in all formats.", "quantifier": "all byte strings (valid or not), all options and processors, baseline and progressive", "why_tests_cant": "the decoder takes different paths for each format through all of reading, decoding, upsampling and conversion; agreement is claimed for every possible file, including damaged ones", "anchors": ["src/decoder.rs:420-560", "src/mcu.rs:60-380", "src/mcu_prog.rs:40-260", "src/worker.rs:32-251"]}
{"id": "C75", "title": "The processor matters only by the SIMD features that are used", "statement": "What a decoder gives for a file depends on the processor and on set_use_unsafe only through which of SSE4.1 and AVX2 it may use: two decoders with the same other options that may use the same features give the same results, also when they are used for several files. Without set_use_unsafe the processor does not matter.", "quantifier": "all byte strings and sequences of them (valid or not), all options, all pairs of processors", "why_tests_cant": "a test runs on one processor; the claim compares runs on processors that the test machine is not, for every file", "anchors": ["src/idct.rs:40-60 choose_idct_func", "src/color_convert.rs:61-107", "src/upsampler.rs:82-115", "src/decoder.rs:468-523 set_upsampling"]}
{"id": "C76", "title": "Memory is bounded by the size limits", "statement": "Once the headers have been read, the sizes of all large buffers are bounded by the configured limits W and H on width and height: the output buffer has at most 4((W+8)(H+8)+128H) bytes; the coefficients that a progressive decoder keeps are at most 3(W+63)(H+63); the coefficient buffers of all strips of a baseline image are at most 3(W+15)(H+15) together at the size of the first strip, and at most 64 times as many at the size of any later strip, whatever segments are found in the scan data. The factor 64 is needed.", "quantifier": "all byte strings (valid or not), all options and processors, every number of strips", "why_tests_cant": "an attacker chooses the header bytes, sampling factors and segments inside the scan; a test can only measure the memory for the files it has", "anchors": ["src/mcu.rs:131-250", "src/mcu_prog.rs:40-80,165-195", "src/headers.rs:205-330"]}
{"id": "C77", "title": "Components do not influence each other", "statement": "When two files have images of the same size and sampling and the same coefficients and quantisation table for one component, that component is the same in every pixel of their YCbCr outputs, whatever the other components, the Huffman codes, restart intervals and scans are. The grayscale output depends only on the luma component, and without subsampling it is that of the grayscale file with the same luma coefficients.", "quantifier": "all pairs of encodable colour files of all sizes and samplings, all options and processors", "why_tests_cant": "a test compares a few files; the claim is that no content of one component can leak into another through predictors, buffers, upsampling or strips", "anchors": ["src/mcu.rs:255-419", "src/mcu_prog.rs:200-473", "src/worker.rs:30-200", "src/upsampler.rs"]}
{"id": "C78", "title": "Without chroma the image is gray", "statement": "When all chroma coefficients of a file are zero, the chroma components of its YCbCr output are 128 everywhere, and in its RGB output red, green and blue of each pixel are all equal to the luma sample.", "quantifier": "all encodable colour files with empty chroma components, of all sizes and samplings, all options and processors", "why_tests_cant": "sample images have chroma, so wrong neutral values at special columns do not show; the claim is about every column, size, sampling and processor", "anchors": ["src/idct/scalar.rs", "src/upsampler.rs", "src/upsampler/avx2.rs", "src/color_convert"]}
{"id": "C79", "title": "Components are told apart by their identifiers", "statement": "A file that lists and codes its components in another order, with the identifiers of JFIF (1 is Y, 2 is Cb, 3 is Cr) saying which is which, is decoded to the same picture as the file that has them in the usual order.", "quantifier": "all pairs of encodable colour files of the same picture, all orders of the identifiers, all sizes, options and processors", "why_tests_cant": "sample files have their components in the usual order; the claim is about every picture and order", "anchors": ["src/headers.rs:200-345", "src/headers.rs:350-470", "src/components.rs:49-136", "src/mcu.rs:127-380", "src/worker.rs:32-251"]}
{"id": "C80", "title": "A pixel depends only on the blocks around it", "statement": "A component of a pixel of the YCbCr output depends only on the coefficients of that component in the MCU of the pixel and the MCUs that touch it: editing a block elsewhere does not change the pixel.", "quantifier": "all pairs of encodable colour images of the same frame, all pixels and components, all sizes, options and processors", "why_tests_cant": "tests decode whole pictures; that far blocks have no influence is a claim about all pairs of images", "anchors": ["src/upsampler/scalar.rs:1-160", "src/upsampler/sse.rs:12-130", "src/worker.rs:32-251", "src/mcu.rs:127-380", "src/mcu_prog.rs:40-420"]}
{"id": "C81", "title": "Raising DC coefficients makes no pixel darker", "statement": "If a grayscale file is changed only by raising DC coefficients, with any codes and restart intervals, no pixel of the decoded image gets darker.", "quantifier": "all pairs of encodable grayscale files of one size and quantisation table, all coefficients, options and processors", "why_tests_cant": "monotonicity relates all pairs of images; the tests compare single images with references", "anchors": ["src/idct/scalar.rs:1-260", "src/idct/avx2.rs:40-320", "src/worker.rs:32-251", "src/mcu.rs:127-380"]}
