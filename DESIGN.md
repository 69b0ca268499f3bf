# Formal model of zune-jpeg

Subject: the JPEG decoder in `/repo/src` (pinned commit). Prover: Lean 4.33.0 with Mathlib.
"T.81" is the JPEG standard (ITU-T T.81). "Strip" is a group of rows that one worker thread turns
from coefficients into output samples.

## Trusted base

* the Lean 4 kernel;
* the axioms `propext`, `Classical.choice`, `Quot.sound` and no others. `lean/Verif/Audit.lean` prints
  the axioms of every theorem named in `MANIFEST.json` during the build;
* the reading of the Rust source that is written down in `lean/Verif/Model/*`. Each definition cites
  file and lines. The Rust code is not executed or extracted;
* the specifications in `lean/Verif/Spec/*`, and those stated at the head of some `Props` files, as a
  reading of T.81.

There is no `sorry`, `admit`, `native_decide`, `bv_decide` or axiom in the project. Concrete witnesses
are evaluated by the kernel (`decide`, `decide +kernel`).

## What is modelled

| Rust file | Lean file | notes |
|---|---|---|
| `misc.rs` (byte readers, `ColorSpace`), `errors.rs` | `Model/Basic` | outcomes, monad, errors without their text |
| `decoder.rs` (object), `options.rs`, `components.rs` | `Model/State` | every field that the decoder reads |
| `marker.rs` | `Model/Marker` | |
| `huffman.rs` | `Model/Huffman` | whole table construction: `lookup`, `maxcode`, `offset`, `fast_ac` |
| `bitstream.rs` | `Model/Bitstream` | every function; 64 bit buffers as `BitVec 64` |
| `headers.rs`, `decoder.rs` (header loop) | `Model/Headers` | every parser, ICC chunks included as skipped data |
| slices, `chunks_exact`, unchecked access | `Model/Slices` | |
| `idct/scalar.rs`, `idct/avx2.rs` | `Model/Idct` | wrapping i32 and i16 arithmetic, saturating packs, both shortcuts |
| `upsampler/*.rs` | `Model/Upsample` | scalar, SSE (horizontal, vertical) and AVX2 (2x2), lane by lane |
| `color_convert/*.rs` | `Model/Color` | scalar, SSE and AVX2 converters |
| `worker.rs` | `Model/Worker` | |
| `mcu.rs` | `Model/Mcu` | baseline scans, strips, thread pool, `handle_rst` |
| `mcu_prog.rs`, `decoder.rs` (`decode_buffer`) | `Model/Prog` | progressive scans |

Not modelled: the text of error messages (only the variant), logging, `Debug` and `Display`, reading
the file in `decode_file` (only its contents), the benchmarks, failing allocations, alignment of the
vectors for the aligned load `_mm_load_si128`, and the inside of `scoped_threadpool`. Of the latter the
model has: every job runs to its end exactly once, or panics, and a panic of a job is a panic of the
decoder. C41 also has a small-step model of the jobs and of their interleavings.

## Modelling decisions

* Arithmetic is that of the release profile: fixed width integers wrap. `usize` is `Nat`; no `usize`
  computation of the decoder reaches 2^64, and subtractions that can go below zero are modelled
  explicitly.
* Panics are outcomes. `Out α` is `ok a | err e | panic site | diverge`. The last one is running out of
  fuel in a loop, and is proved impossible for every input (C05).
* An unchecked load or store outside of its slice is the outcome `panic .unsound`, and is proved
  impossible for every decoder object and input (C47).
* A computation is `σ → Out α × σ`, so that the decoder object after an error is that of the Rust code
  (needed for reuse, C42).
* The reader (`Cursor<Vec<u8>>`) is the list of unread bytes.
* Slices and vectors are lists; an index out of range is a panic.
* CPU features are a parameter (`Cpu`), so that every theorem covers both code paths.

## How it is organised

* `Model/` is the code, `Spec/` what the standard says, written without the model.
* `Lemmas/` are helpers. The main ones: `Reader`, `Refill` (invariant `Rep` between the bit reader and a
  list of bits); `Huffman`, `FastAc`, `AcLoop` (symbols and baseline blocks); `Gray`, `GrayFile` (scans,
  restart intervals and strips of baseline images); `Units`, `Colour*` (the same for three components);
  `AcFirst`, `AcRefine`, `ProgBlock`, `ProgScan`,
  `ProgFile`, `ProgInter`, `ProgColour`, `ProgColourFile`, `ProgColourOut` (progressive blocks, scans and files); `Segment`, `HeaderLoop`, `FileSegments` (header
  segments); `Frame`, `Geometry` (sizes after a frame header); `Sound*` (safety of all accesses);
  `Total` (termination); `Cosine` (the real transform); `Wp` (weakest preconditions).
* `Props/` are the property theorems, named after the property: `c17_extend` belongs to C17.
  `_partial` says that the theorem proves less than the property, `_false` that it refutes the property
  by a witness. The comment of each theorem says what is missing. Examples beside the theorems show
  that their hypotheses can be met.

## Properties

`properties.jsonl` has the statements, `MANIFEST.json` the theorems of each property.

| id | title | model | proof | status |
|---|---|---|---|---|
| C01 | Buffers that do not start with FF D8 are rejected untouched | `decodeHeaders` | evaluation of the first read, state equality | proved |
| C02 | Accepted images respect the configured size limits | header loop, whole decode | invariant over every marker step | proved |
| C03 | info() reports the frame header that is in the file | header loop | invariant with the consumed prefix | partial |
| C04 | Header parsing looks only at the header | reader | suffix independence (simulation) lemma for every parser | proved |
| C05 | Decoding terminates on every input | loops with fuel | measure: unread bytes | proved |
| C06 | Header parsing never panics | header parsers | weakest preconditions; exact panic characterisation | partial |
| C07 | Strict mode only rejects | two runs; the header loop | simulation; exact count of the bytes strict mode tolerates | proved |
| C08 | Raising the limits does not change accepted images | two runs | simulation | proved |
| C09 | Application and comment segments are transparent | header loop | one step of the loop on the inserted segment | proved |
| C10 | A Huffman table is accepted exactly when its code exists | table construction, DHT segments | refinement to the canonical code written over bit strings; segments are accepted iff they are lists of such tables | proved |
| C11 | Symbol decoding picks the one code word that prefixes the stream | symbol lookup | the same refinement, over the 64 bit window | proved |
| C12 | Accepted Huffman tables are uniquely decodable | code book | order of the canonical code words | proved |
| C13 | The combined AC table agrees with decode-then-extend | `fast_ac` | bit-vector arithmetic for every entry, witnesses | partial |
| C14 | Order of DHT and SOF segments does not matter | header loop | simulation of two orders of segments, witness | partial |
| C15 | The bit reader delivers exactly the unstuffed bits | bit reader | representation invariant `Rep`, refinement to the unstuffed bit list | proved |
| C16 | The four byte refill fires only when no byte is FF | `refill` | the 32 bit step equals four byte steps | proved |
| C17 | Magnitude extension follows T.81 F.2.2.1 | `huff_extend` | bit-vector arithmetic, for all sizes | proved |
| C18 | DC differences are read correctly | `decode_dc` | refinement on `Rep` | partial |
| C19 | Block round trip | `decode_mcu_block` | induction on the coefficient list, on `Rep` | partial |
| C20 | Block decoding is total | block decoders | invariants; totality | proved |
| C21 | Markers in scan data are recognised, never decoded | `refill`, marker state | invariant `Rep` with the marker found | proved |
| C22 | Restart intervals | scan loop, `handle_rst` | induction over intervals and data units; witness | partial |
| C23 | End-of-band runs skip exactly the stated number of blocks | skip after an end-of-band run | arithmetic over all widths, induction | proved |
| C24 | AC refinement only refines | `decode_mcu_ac_refine` | loop invariant | partial |
| C25 | DC successive approximation rebuilds the value | first and refinement scans | loop invariants | proved |
| C26 | IDCT output is a sample | both IDCTs | range of the clamp; witness for the unclamped path | partial |
| C27 | The flat-block shortcut agrees with the full IDCT | flat blocks | arithmetic; witness | partial |
| C28 | AVX2 and scalar IDCT agree | both IDCTs | error bound between two integer algorithms | partial |
| C29 | IDCT blocks land in raster order | row assembly | layout bijection | proved |
| C30 | Decoded blocks never overwrite each other | block positions | bijection between data units and buffer positions | proved |
| C31 | Horizontal upsampling is the triangle filter | scalar upsampler | list induction | partial |
| C32 | SSE and scalar horizontal upsampling agree | SSE upsampler | list induction over groups of lanes | partial |
| C33 | Vertical upsampling | vertical upsampler | pointwise | proved |
| C34 | Colour conversion is within 2 of the JFIF formula | colour conversion | linear integer arithmetic over all triples | proved |
| C35 | SIMD and scalar colour conversion agree | SIMD colour conversion | lane by lane equality | proved |
| C36 | YCbCr output places every sample | strips | layout lemmas | proved |
| C37 | Grayscale output places every sample | strips | layout lemmas; exact width condition | partial |
| C38 | RGB output places every pixel | strips | layout lemmas; witness as model state and as file | partial |
| C39 | RGBA and RGBX output is four bytes per pixel with opaque alpha | strips | proof for every decoder state that it is violated | partial |
| C40 | Output length | whole decode | invariant of the row loop | partial |
| C41 | Thread count and scheduling do not change the image | jobs as small-step programs | any interleaving of disjoint writes | proved |
| C42 | A reused decoder behaves like a new one | histories of calls | simulation up to left-over tables; induction over the files decoded before with an invariant of the used decoder; witnesses | partial |
| C43 | The scan limit is enforced | progressive loop | induction on scans | proved |
| C44 | All MCU rows of an image are decoded | row loop | arithmetic; exact condition; witness | partial |
| C45 | Output strips are available for every MCU row | row loop | arithmetic; exact condition; witness | partial |
| C46 | Options are independent and remembered | options | case analysis over all fields | partial |
| C47 | Unchecked SIMD accesses stay inside their slices | unchecked accesses | an explicit outcome for an unsound access, proved unreachable for every decoder and input | partial |
| C48 | Only baseline and progressive Huffman frames are decoded | header loop | invariant | partial |
| C49 | Zig-zag order is a permutation | DQT, zig-zag | permutation | proved |
| C50 | DQT segments | DQT | induction on segment contents | proved |
| C51 | Scan headers are validated | SOS | exact characterisation | proved |
| C52 | Frame components are validated | SOF | exact characterisation | proved |
| C53 | Grayscale images decode to their samples | everything, baseline | composition of headers, scan, IDCT, strips | partial |
| C54 | AVX2 and scalar 2x2 upsampling agree | AVX2 2x2 upsampler | pointwise over groups of lanes; witness | partial |
| C55 | Colour images decode every data unit | everything, several components | induction over data units, MCUs, strips; witness | partial |
| C56 | The inverse DCT is accurate | both IDCTs against the real cosine transform | error analysis over the reals | partial |
| C57 | Encoding and decoding an image loses no more than quantisation does | everything, with the forward transform | Parseval identity, C56 and C53 | partial |
| C58 | Progressive images decode to what their scans say | everything, progressive | induction over scans, then data units, then coefficients | partial |
| C59 | Chroma samples are upsampled in place | everything, subsampled | closed forms of the upsamplers on the strips of C55; witnesses | partial |
| C60 | An RGB image survives encoding and decoding | everything, with the forward transform and the conversion from RGB | C57 for each component, C55 and the rounding of the converter | partial |
| C61 | Progressive colour images decode to what their scans say | everything, progressive, several components | induction over scans and the cells of interleaved scans; the strips of C55 | partial |
| C62 | Blocks outside the image do not change it | everything, baseline, several components | the rows of C55 that are written depend on the blocks of the image only | partial |
| C63 | What follows the end of the image does not matter | everything | every function that reads is causal: a run that leaves bytes unread does not depend on them; simulation of files with appended bytes, in which the end of image marker stops the refill | partial |
| C64 | Damage does not reach the rows decoded before it | everything, baseline | causality of the first strips (as C63), and jobs write chunks of their own | proved |
| C65 | Decoding never panics | everything | invariants through headers, both scans and the jobs: every panic site is shown unreachable, with outcomes Ok or Err | partial |
| C66 | The sampling factors of a single component do not matter | everything | simulation: the two decoders differ only in fields that a scan of one component does not read; for progressive files the invariant that no sample is written | partial |
| C67 | Segments between scans do not change the image | everything, progressive | the scan loop stops at any marker but DHT and SOS; the scans before it by C58 and C61 with any end; witness | partial |
| C68 | Baseline images may have one scan per component | everything, baseline | simulation: decoding does not read the fields that the scan header sets but for the tables of the components; witness | partial |
| C69 | Only the products of coefficients and quantisation steps matter | everything | the inverse transforms are functions of the products (mod 2^32) and of which AC coefficients are zero; then C53, C55, C58 and C61 | partial |
| C70 | Only the four usual samplings are decoded | everything | what the parser leaves in the components and what the MCU setup refuses; the frame header is the only segment that sets them | proved |
| C71 | Reading the headers first changes nothing | everything | two runs of the header parser related step by step; the file theorem by invariants over the segments | partial |
| C72 | Tables may come in any order and in any segments | everything | every segment puts its last tables into the decoder (C10, C50); the puts of two sequences with the same last tables agree | proved |
| C73 | Fill bytes and the numbers of restart markers do not matter | everything | relation between bit readers that have met the same bits and markers of the same kind; every function that reads preserves it | partial |
| C74 | The output formats agree | everything | lockstep of the two decoders up to the jobs of the strips; the results of each pair of jobs are related, and so are the images put together from them | partial |
| C75 | The processor matters only by the SIMD features that are used | everything | lockstep of two decoders that differ in the processor and the option only; both are looked at only by the functions that choose SIMD code | proved |
| C76 | Memory is bounded by the size limits | headers, set-up of both scan kinds, strips | factors of at most 8 are an invariant of the decoder that every segment keeps (the frame invariant of C08 and `Stable`); the products are then bounded by the rounded size | proved |
| C77 | Components do not influence each other | whole decoder | the exact planes of C55 and C61 depend on the coefficients and table of their own component only | partial |
| C78 | Without chroma the image is gray | whole decoder | the inverse transform of zeros is 128, all upsamplers but the AVX2 one keep constants, and the conversion of (y, 128, 128) is (y, y, y); counterexample computed through the exact AVX2 formula | partial |
| C79 | Components are told apart by their identifiers | whole decoder | headers of the files with any order of identifiers evaluated once for all; the jobs depend on positions only; planes compared through the exact image of C55 | partial |
| C80 | A pixel depends only on the blocks around it | whole decoder | the exact image of C55 and C61; each value of a plane reads the samples next to it only, and a sample is in one block; a counterexample for the ends of the rows | partial |
| C81 | Raising DC coefficients makes no pixel darker | inverse transforms; whole decoder | the two passes are sums with the positive weight 4096 for the first coefficient, roundings and clamps are monotone; files through C53, C55 and C58 | partial |

## Where the code disagrees with its properties

Each of these is proved of the model, by the theorem named.

| theorem | what happens |
|---|---|
| `c03_false`, `c48_false` | The fill bytes `FF FF` before a marker are misparsed: the marker after them is skipped or a later byte is taken for one. |
| `c06_false` | A scan header that names component 4 of a frame with four components panics. |
| `c13_false_magnitude`, `c13_false_run` | The fast AC table stores magnitudes in too few bits (category 6 and above with a short code), and takes symbols of category 0 with run 1 to 14 for coefficients. |
| `c14_false` | Tables in front of the frame header of a progressive file are built as baseline tables. |
| `c18_false` | `decode_dc` refills below 16 bits only, so that a code with its additional bits may read zeros. |
| `c19_false` | A 6 bit magnitude whose code and bits fit into 9 bits overflows the combined AC entry: 63 is decoded as -1. |
| `c22_false` | Restart intervals are counted per component instead of per MCU. |
| `c24_false` | A refinement scan can set a coefficient behind the end of its band. |
| `c26_false`, `c57_false` | The scalar IDCT does not clamp flat blocks; a white block becomes black. |
| `c27_false`, `c28_false` | The shortcut for flat blocks rounds differently, and so do the two implementations. |
| `c31_false`, `c32_false`, `c54_false` | Upsamplers exchange weights or take wrong neighbours at the right end and where groups of lanes meet. |
| `c37_gray_partial`, `c53_gray_partial`, `c37_false_file` | Grayscale images with `9w ≤ 64⌈w/8⌉`, such as 9 to 14 columns, panic; so does grayscale output of narrow colour images. |
| `c38_false`, `c38_false_file`, `c38_false_edge` | The right edge of wide RGB images has wrong samples; the last byte of each row is never written. |
| `c38_sse_file` | The SSE converter panics for many widths. |
| `c39_false`, `c39_false_file` | Four channel outputs are written by the three channel converter. |
| `c40_false` | A frame header inside the scan changes the size that the object reports. |
| `c42_false` | A reused object keeps state that changes the next image: a colour image after a grayscale one comes out gray. |
| `c42_factors_false` | After an image with larger sampling factors an image with smaller ones is refused or half lost. |
| `c44_false`, `c45_false` | The last row of MCUs, or the end of wide and low subsampled images, is lost. |
| `c46_threads_false` | `set_num_threads` panics for multiples of 2^32. |
| `c47_false` | A load in `idct/avx2.rs:136` leaves the sub-slice its pointer comes from (but not the block). |
| `c55_false` | Components that follow the prefetched end marker are skipped. |
| `c58_false` | The decoder does not look for the marker after the first progressive scan, and refuses the file if it has not read it by chance. |
| `c58_restart_false` | Progressive files with restart intervals are refused at the end of the first scan. |
| `c59_false_start` | With half horizontal resolution the rows of a strip are upsampled as one line: the first pixel of a row is mixed with the last one of the row before. |
| `c59_false_rows` | With half resolution in both directions two rows of chroma are upsampled as one line, so that rows of pixels are mixed from chroma rows two rows apart and are out of place. |
| `c59_false_flat` | With AVX2 and rows of at least four MCUs, chroma that is 159 everywhere becomes 179 where groups of 32 columns meet (for chroma above 230 the value leaves the range of a byte and wraps around). |
| `c62_false` | For images of more than 16 columns whose last MCU is not full the RGB converter writes pixels from outside of the image into the row: byte 32 of the first row of a 24 column image comes from column 24. |
| `c63_false` | A baseline file that ends within its scan is decoded as if zeros followed; bytes appended to it become part of the image. |
| `c65_false` | A frame of two components is decoded as three: the third component is indexed out of range (panic). |
| `c65_false_frame` | A frame header met inside a baseline scan replaces the components while the buffers keep their size (panic). |
| `c66_false`, `c66_black_partial` | Progressive grayscale files whose component has sampling factors other than 1x1 decode to a black image without an error. |
| `c67_gray_false`, `c67_colour_false`, `c67_false` | A comment, APPn, DQT or DRI segment between two scans of a progressive image ends the decoding: the later scans are dropped without an error. |
| `c68_ignored_false`, `c68_false` | A baseline scan is decoded as if it held all components whatever its header says; images with a scan for each component are refused or decoded wrongly. |
| `c22_late_false` | A valid grayscale file with restart intervals is refused: the last AC symbol of an interval takes 26 bits, all of which are in the buffer, so that the restart marker behind it has not been seen when the restart is due. |
| `c56_large_false` | Both transforms give 0 where the ideal one gives 255, for a coefficient of 2047 with a step of 255: the 32-bit sums overflow. |
| `c71_false` | A decoder that has read the headers before decodes some files differently: progressive files with DHT segments before the frame header get the AC tables of progressive files only the second time, and component strides computed before the largest factor was known are computed again, so that a refused file (Cb before Y, 4:2:2) is decoded. |
| `c73_false` | A fill byte before a header segment is taken for an unknown marker; the file is refused. |
| `c73_headers_false` | The same for every file with fewer than 0xC000 bytes after the fill byte: none of them is decoded. |
| `c74_false` | An image of seven columns is decoded to YCbCr, but makes a worker panic with grayscale output. |
| `c78_false` | An image of one gray without chroma (4:2:0, 64 columns) has a purple pixel in column 32 when decoded with AVX2: the upsampler makes the chroma value 144 out of 128. |
| `c79_false`, `c79_ignored_false` | Identifiers of components are ignored: an image in which Cb and Cr are listed and coded before Y is shown with luma used as Cr. |
| `c80_false` | With half horizontal resolution the chroma rows of a strip are interpolated as one long line: the first chroma value of a row is mixed with the last of the row above, so an edit at the right edge changes pixels at the left edge. |
| `c81_false` | Scalar transform: raising the DC coefficient of a flat white block by one turns it black, as the shortcut for flat blocks does not clamp. |
| `c74_flat_false` | Without AVX2 the RGB image is not the conversion of the YCbCr image: flat blocks are not clamped, and YCbCr output keeps the low bytes. |

Further observations that are part of the model but not of a property: frames of two components panic
in the row loop; between progressive scans every segment other than DHT and SOS ends the decoding
silently; a refinement scan of the DC coefficients needs a DC table although it uses none.

## Tests of the theorems

`seeded/LOG.jsonl` records edits of a copy of the model that imitate realistic bugs, the claims they
break and the property theorems that fail. After each edit the copy is rebuilt. A theorem or lemma whose
proof no longer checks is replaced by its bare statement in the copy, and the build goes on; a property
theorem counts as failed if its own proof, or a lemma it depends on, no longer checks. Edits that no
theorem noticed led to new theorems; the log says which.
