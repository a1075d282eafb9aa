# FlatCV: formal model and proofs — design

Target: the C sources in `/repo/src` (ad-si/FlatCV at the pinned commit). Nothing is
built or run; the C text is transcribed by hand into Lean 4 definitions and the
properties of `properties.jsonl` are proved about those definitions.

## 1. Trusted base

* The Lean 4.33.0 kernel. Theorems may depend only on `propext`, `Classical.choice`
  and `Quot.sound` (checked with `#print axioms`); no own axioms, no `sorry`,
  no `native_decide`/`bv_decide`. `AXIOMS.txt` lists the axioms of each theorem named in
  `MANIFEST.json`.
* The hand transcription C → Lean. Every definition of `Verif/Model/` cites the
  lines it transcribes and lists its simplifications.
* The semantics of C fixed in `Verif/Core/` (section 2).
* For C112–C115: that c2hs passes the arguments in the order of `Raw.chs` without change; that `newForeignPtr` releases the block
  with `free` some time after the vector is dead; that an exception skips the rest of an action; that text is ASCII.

## 2. Semantics of C used by the model

* **Undefined behaviour is an outcome.** Computations live in `Except Fault`.
  `Fault` distinguishes out-of-bounds read/write, reading uninitialised memory,
  signed overflow, float-to-integer conversion out of range, division by zero,
  null dereference, process exit, and divergence
  (a loop whose counter provably never reaches its bound). A theorem
  "`f … = .ok r`" therefore says that no such fault happens.
* **Integers.** `uint32_t` is a `Nat` with every arithmetic step reduced
  `% 2^32`; `int32_t` is an `Int` with a range check on every step that can
  overflow; `size_t` is a `Nat` reduced modulo `2^szBits`, where `szBits ≥ 32` is a
  parameter (`Plat`): results hold for 32- and 64-bit platforms.
* **Memory.** A buffer is a list of `Option UInt8` (`none` = uninitialised byte)
  with an identity; the heap keeps the set of live blocks. `malloc` consults an arbitrary
  oracle `fails : Nat → Bool` indexed by allocation number, so a statement about
  all heaps covers every pattern of allocation failures. `free` of a dead block
  is a fault; NULL is `none`. Computations on the heap live in `Except HFault`, where `HFault` is
  a fault of a computation on the contents of blocks (`comp`), `badFree` or `useAfterFree`; the
  types ensure that only `free` and `use` can raise the last two.
* **Floating point.** `Core/Float.lean` defines IEEE binary32/binary64 rounding
  (round to nearest, ties to even, subnormals, overflow) as a computable function on
  rationals; every C operation is the exact rational operation followed by that
  rounding. In most functions only finite values can occur; there a value that would be
  infinite or NaN is a fault (`fpSpecial`), and the theorems show it does not happen.
  Where infinities and NaN can reach the code (`Core/Ieee.lean`, type `Dbl`), they are
  values with the IEEE rules. Assumed: `FLT_EVAL_METHOD` 0, no contraction to FMA,
  default rounding mode, +0 and -0 identified. `sqrt` is correctly rounded
  (`Core/Sqrt.lean`). `exp` is a parameter with the hypothesis `ExpOk` and `atan2` a parameter
  (hypotheses at the theorems). The linear solver is polymorphic over
  the arithmetic: the theorems on solutions use exact rationals, those on safety doubles.
* Aliasing between distinct blocks is impossible; a `const` input buffer is a value.

## 3. Layout

`Verif/Core` semantics; `Verif/Model` transcription; `Verif/Spec` specifications which
do not mention the model; `Verif/Lemmas` helper lemmas; `Verif/Props` the property
theorems with concrete witnesses for their hypotheses.

## 4. Properties: what is modelled and how each is proved

| Id | Modelled | Proof idea |
|----|----------|-----------|
| C01–C04 | the seven functions of flip.c/rotate.c byte by byte | scatter lemma: the destination index is an injection onto the output |
| C05 | composition of the above | pointwise from C01–C04 |
| C06–C08 | fcv_crop incl. size_t overflow checks | row memcpy invariant |
| C09–C11 | heap effects of each function | C09 from the guards; C10, C11 by following the live blocks through every function body (`HeapSafe`, `Tidy`), without conditions on the arguments. C09 false for extraction, C10 for the perspective transform, C11 for corner detection: witnesses |
| C12–C15 | rgba_to_grayscale, grayscale, single_to_multichannel | loop invariant; bytewise arithmetic. C14 is false for ≥2^30 pixels: negation proved |
| C16 | histogram + quantile loops of grayscale_stretch | loop invariants on counts |
| C17–C20 | global/double threshold, otsu with abstract float rounding | argmax invariant; C20 false for t<16 or t>239: negation proved |
| C21–C23 | gaussian blur with abstract exp and rounding | invariants; convexity up to rounding |
| C24–C27 | fcv_resize | coordinates in ℚ with rounding; C27 false: witness |
| C28–C32, C70 | draw.c | write-set invariants; overflow witnesses |
| C33, C34 | parse_hex_color, convert_to_binary | exhaustive over lists; loop invariant |
| C35–C38 | binary_closing_disk.c | loop ⇔ set definition, then lattice laws; overflow witness |
| C39–C41 | trim.c | loop invariants; C40 false: witness |
| C42 | histogram.c | counting invariants |
| C43–C47 | watershed with its queue | potential argument, path invariants |
| C48–C50 | corner_peaks.c | candidate list, elimination loop invariant |
| C51, C52 | sobel | abstract rounding; C52 false: witness |
| C53–C55 | exif.c over an abstract FILE (byte list + position) | C54 false: witness; progress measure otherwise |
| C56 | orientation switch of main | from C01–C04 |
| C57, C58, C96–C98 | solver and matrix set-up, over rationals and over doubles | row-operation invariant; uniqueness from the triangular form; C58, C97, C98 false: witnesses |
| C59, C99, C100 | apply_matrix_3x3 in doubles | loop invariant with bilinear error bounds; identity and integer matrices exactly; overflow, NaN and reuse witnesses |
| C60, C101, C102 | sort_corners in doubles, atan2 a parameter | bubble sort keeps a permutation; exact centroid and relative angles within 1e-8; C102 false: witness |
| C61, C103-C105 | fcv_detect_corners as a whole on the heap, composed of the modelled functions; exp, atan2, asin parameters | the blocks alive are tracked through every call; C61 false below four peaks: every run faults; C104 false of every returning call |
| C62–C67, C106 | cli.c: parsing, all operations, `execute_pipeline`, `main` | list lemmas; heap invariant over histories |
| C107–C109 | the pieces of the text, `apply_operation`, `execute_pipeline`, `main` together | `Asks` gives each form of a piece a meaning in terms of the image specs, `Leads` chains them; composed from the theorems about the parser, the dispatch, the library functions, EXIF and orientation |
| C110 | `resize WxH` through `apply_operation` | false: witness; error bound of quotient and product |
| C112–C115 | `bindings/flatcv-hs/src/FlatCV.hs`: all exported functions that call C, the `Storable` instances | a returned vector is a C block with a length of its own; the properties of the C functions carry over through `withImageData`, `withSize`, `trimmed` |
| C111, C116 | extract_document.c with corner detection, perspective transform and warp; `pow(x, 2)` a parameter | error bounds for squares, root and rounding; warping succeeds exactly if the coordinates fit; composition over the heap |
| C117–C120 | stb_image_write.h: PNG writer with deflate, zlib, CRC, filters (Model/Png.lean) | reader written from the specifications (Spec/Png.lean); invariant "the bits written so far inflate to the bytes consumed so far"; filters undone row by row; witnesses for overflow and leak |
| C121–C123 | stb_image.h: zlib decoder (Model/Inflate.lean) | decoder written from the specifications (Spec/Huffman.lean, Spec/Inflate.lean); the bits to come are one number with zeros after the end; every step reads as the specification or the specification cannot read 32 more bits; tables correct for every set of code lengths |
| C124–C127 | stb_image.h: PNG decoder as called for four channels: reading the file, chunks, row filters, bit depths, interlacing, palette, transparency, conversion (Model/PngLoad.lean) | meaning of a file written from RFC 2083 (Spec/PngDecode.lean), with paletted, interlaced and transparent images; every fault traced to one of two causes; the rows reconstructed as the specification does; witnesses for both faults, one of them a valid file; composed with the writer and with `main` |
| C128–C132 | stb_image_write.h: JPEG writer for four bytes per pixel and quality 90 (Model/Jpeg.lean) | reader of baseline files written from ITU-T T.81, samples and cosine transform over the reals (Spec/Jpeg.lean); invariant "the bits written so far decode to the blocks so far"; error analysis of the float transform against exact cosines; Parseval's identity; witness for the overflowing shift; sides of 65536 and more |
| C133–C136 | stb_image.h: inverse transform, enlargement and colour conversion of the JPEG decoder, scalar versions (Model/JpegKernel.lean) | exact inverse cosine transform (Spec/Jpeg.lean), colours of ITU-T T.871 and linear interpolation over the reals (Spec/JpegPixel.lean); the integer transform as a matrix, its distance from the exact one, the rounding of both passes; witnesses for the overflow and for the exchanged weights |
| C137–C141 | stb_image.h: the JPEG decoder for sequential files as called for four channels: markers, tables, Huffman codes with the fast tables, entropy-coded data, planes, lines, `stbi_load` (Model/JpegLoad.lean); composed with the writer | the reader of Spec/Jpeg.lean and the exact image of a file (`Contents.red`, `.green`, `.blue` in Spec/JpegPixel.lean); tables correct for every Huffman code with at most 255 values; state of the bit buffer as the bits that are still to come; every block in its place in the planes; error bounds added up; constant blocks survive exactly; composed with EXIF and `main` |
| C142 | the same decoder (Model/JpegLoad.lean) on arbitrary bytes | `Outc E m Q`: `m` ends in `Q` or with a fault in `E`; invariants of tables, bit buffer, planes and lines for every state that any file can reach; the number of bytes to come bounds every loop; witnesses for the three faults |
| C143 | progressive files (Model/JpegProg.lean): scans of DC and AC coefficients, first and refining, runs of ended blocks, `stbi__jpeg_finish` | as C142, with the planes of coefficients in the invariant; the order of codes, scans and markers is arbitrary; witnesses: a file without its end marker, a file without scan |
| C144, C146 | scans of progressive files (Model/JpegProg.lean: `prog_entropy`, `prog_ac`, `prog_dc`) | spec in Spec/JpegProg.lean: `coarse` (a coefficient without its low bits), and T.81 annex G as relations between coefficients and bits (`First`, `Refined`, `BandScan`, `DcScan`); induction over the codes of a block with the state of the band (`Mid`, `MidF`), then over the blocks; no restart intervals |
| C145 | `stbi__jpeg_finish` | loop invariants; the same predicate `BlockCells` as for baseline files |
| C68, C93–C95 | foerstner_corner.c | index bounds; underflow happens exactly when the window does not fit; error analysis of the measures; C94, C95 false: witnesses |
| C69, C82 | count_colors | set cardinality invariant; overflow at 2^29 pixels |
| C71 | trim.c beyond 2^32 bytes | negation with the wrapped offset |
| C72 | histogram.c, count*200 | negation from 21474837 pixels |
| C73, C74 | exif.c arithmetic and fill bytes | witnesses |
| C75–C77 | watershed | invariants of the flood; C75 false: witness |
| C78 | corner_peaks beyond 2^31 pixels | wrapped index |
| C79, C80 | otsu | witnesses (variance rounding, endless loop) |
| C81 | orientation step of main | witness with failing allocation |
| C83–C85 | blur: mirror symmetry, uniform images | witnesses |
| C86–C88 | resize: averaging, mirror symmetry, huge outputs | witnesses and proofs for the other factors |
| C89 | sobel magnitude | error bound |
| C90–C92 | bw_smart | composition of the blur and threshold theorems |
| C147-C149 | PGM and PPM files (Model/Pnm.lean) | spec in Spec/Pnm.lean after the Netpbm manual (gaps with comments, decimal numbers, samples of one or two bytes); the header by induction over gaps and digits with the invariant `Ahead` (byte seen, bytes unread), for any bytes with a measure of what can still be read (`Ctx.togo`) |
| C150 | the program with PGM and PPM files | composition of C147 with the theorem about `main` (`main_png_file`) |
| C151 | files that are not images | Model/ImageFormat.lean: the nine tests of `stbi__load_main` and what rewinding leaves of a short file; no test finds its signature |
| C152 | `main` with a file that is not an image | composition of C151 with the parser theorem of C65 and the heap accounting of `main` |
| C153 | any file | composition of C124, C143, C149 with the choice of the decoder (C151) |
| C154 | PNG, PGM and PPM files to JPEG files | composition of C151, C125, C147 with C132 |

Not modelled: the decoders of stb_image.h except for PNG, zlib, JPEG and PNM (their choice is modelled in Model/ImageFormat.lean; the SIMD versions of the three JPEG kernels are left out; stb_image uses the latter on x86 with SSE2 and on ARM with NEON), and the branch of the JPEG encoder for qualities above 90 (`main` is modelled with an arbitrary decoder result in
one block and encoders that read all bytes of the image; blocks allocated by fopen are left out; the PNG encoder has a model of its
own, which C120 composes with `main`, and so have the PNG decoder, C127, and the JPEG encoder, C132), stdout/stderr text, timing, OS file errors beyond
"cannot open", stack exhaustion.

(The per-property state is in `MANIFEST.json`; disagreements between the documentation
and the code are collected in section 5.)

## 5. Disagreements found between intended behaviour and the code

Each item is proved in Lean (negation or fault theorem); the ids name the property.

* C14: `fcv_grayscale` on more than 2^30 pixels leaves bytes uninitialised.
* C19, C79: Otsu's threshold: rounding of the cumulative sum creates a bogus variance; a 442177x1
  image of nearly all 255 becomes black. C80: 2^32 pixels or more loop forever.
* C20: the double threshold bounds wrap for thresholds below 16 or above 239; equal bounds divide by 0.
* C22: a tiny positive blur radius produces NaN weights (undefined conversion). C83, C84: fractional radii
  use an asymmetric kernel. C85: radius 0.5 turns gray 109 into 108.
* C26, C27: resizing with one factor below 1 and the other at least 2 leaves a black first column/row.
  C86, C87: shrinking averages a window shifted by half a pixel. C88: outputs over 2^32 bytes are not initialised.
* C28–C32: circle/disk centres outside `int32_t` are converted (undefined); the radius guard does not
  prevent overflow from 536912000 on; images with a side of 2^31 are silently not drawn on; radius 0
  also paints diagonal neighbours; gray colours are not preserved on one-channel images.
  Borders with 2 or more than 4 channels leave uninitialised bytes.
* C35–C38: morphology overflows for radius 32768 and more.
* C40: trim is not idempotent and can drop one-pixel-wide content. C71: it wraps beyond 2^32 bytes.
* C42/C72: the histogram height overflows from 21474837 equal pixels on.
* C54: the EXIF reader loops forever on `FF D8 FF E0` followed by the end of file. C73: `byte << 24` overflows.
  C74: fill bytes hide the orientation.
* C43–C47, C75: watershed: endless initialisation from 2^32 pixels on, NULL without allocation failure from 2^31,
  uninitialised bytes above 2^30; marker coordinates outside `int32_t`; boundaries do not separate regions.
* C51, C52, C89: Sobel with a side of 2^31 uses the wrong neighbour; 3-channel images are read as RGBA past the end.
* C58: three source corners on a line give a matrix (not the fallback) that maps none of them.
  C97: NULL dereference when memory runs out. C98: proper corners can fall back to the identity.
* C59: `int32_t` index overflow above 2^29 pixels; NaN or huge coordinates are converted. C100: the flip matrix is
  overwritten with the size of the first image.
* C60: corners whose directions differ by less than 1e-6 are compared by distance, which is not an order together with
  the comparison by angle. C102: three corners of a square standing on its corner are completed with a corner of the
  bounding box. With three corners, sort_corners writes four entries.
* C68: Foerstner underflows an unsigned bound for images smaller than its window. C94: the ramp 100-7x-5y gets
  full response. C95: the strongest response can be 254.
* C78: corner peaks wrap above 2^31 pixels. C81: the orientation step swaps the dimensions even if the
  rotation failed. C82: the colour counter overflows from 2^29 pixels on.
* C91: bw_smart gives NULL for more than 10^8 pixels. C92: a blank 100x1 page of gray 246 gets black pixels.
* C61: with fewer than four peaks after the last attempt fcv_detect_corners is undefined: 0 peaks divide by zero or read outside
  the array, 1 or 2 read uninitialised entries, 3 make sort_corners write past its array. C104: every returning call leaks two
  blocks (`segmented_image_wide` and `peaks->points`). C105: the accuracy threshold 0.01 is never tried, the working image can be
  255 pixels wide instead of 256 (for example for width 49), and several allocations are not checked.
* C64: parse_geometry accepts a minus sign on the size, because strtoul negates: "-18446744073709551615x2" is the size 1x2. On a
  platform whose long has 32 bits, offsets beyond the range are clamped and not rejected.
* C65: `extract_document_to` uses atoi: numbers beyond int are undefined behaviour and -5x600 is taken as 4294967291x600. A tab
  does not separate an operation from its parameters. Names longer than 31 and string parameters longer than 63 characters are cut
  silently (so a list of watershed markers longer than 63 characters loses markers). create_pipeline, add_operation and the
  parser use the results of malloc, realloc and strdup without a check.
* C09: fcv_extract_document(_auto) asserts instead of returning NULL when a dimension is 0 or at least 2^31.
* C10, C11: the perspective transform dereferences NULL and corner detection terminates the program when memory runs out;
  extraction would keep a matrix that equals the identity.
* C62: `rotate 90.5` is not refused but cut to 90.
* C67, C106: the operations that detect corners leave blocks allocated: `detect_corners` two for every image.
* C66: the operations circle, disk, detect_corners and draw_corners compute `width * height * 4` in `int`, which overflows
  (undefined behaviour) from 2^29 pixels on; sizes of 2^31 and more become negative `int`s between operations.
* C110: `resize WxH` divides W by the width and `fcv_resize` multiplies again and truncates, so the result can be one pixel smaller
  than asked for (800 to 113 gives 112 pixels, 1920 to 245 gives 244); `resize 1x1` of a 49×49 image fails.
* C107: numbers that `atof` reads as NaN or infinity reach casts to integers (undefined behaviour) in several operations; the
  theorems require finite values.  A border of less than one pixel is refused after truncation.
* C112: seven Haskell functions return vectors longer than the memory behind them, because they assume four bytes for every pixel:
  `binaryDilationDisk`, `binaryErosionDisk`, `binaryClosingDisk`, `binaryOpeningDisk`, `convertToBinary` (the C functions
  allocate one byte for every pixel), `foerstnerCorner` (two), `sobelEdgeDetection` with more than one channel (one).  Reading
  the vectors reads beyond the heap blocks.
* C114: the Haskell `watershedSegmentation` does not release its copy of the markers when the C function returns NULL;
  `calculatePerspectiveTransform` calls `free` on the static matrix that the C function returns for degenerate corners.
* C118: the PNG writer adds up the absolute values of a filtered row in an `int`; a row of 2^24 bytes 128 (for example 4194304 × 1
  RGBA) overflows it.
* C119: in the PNG writer a failing first allocation of the compressed data is only caught by an assertion, and the compressed data
  is not released when the block for the file cannot be allocated.
* C123: the zlib decoder ignores the checksum and accepts streams that end too early, the missing bits being zeros.
* C124: an index beyond the end of the palette makes the PNG decoder use bytes of `palette` that were never written.
  `stbi__convert_format16` computes the size of its block in `unsigned int`: from 2^29 grey pixels with 16 bits on the size wraps
  around and the loop writes behind the block (heap overflow). `stbi__convert_16_to_8` does not release the 16 bit image when there
  is no memory. For an empty first IDAT chunk memcpy is called with NULL and 0 bytes (not counted as a fault in the model).
  The decoder does not look at CRCs and at the checksum of the data.
* C148: PGM and PPM files with a largest sample other than 255 are not scaled, so they are loaded too dark; of 16-bit samples the less
  significant byte is shown (the bytes are stored most significant first, but used as host `uint16_t`).
* C149: `stbi__convert_format16` (see C124) overflows the heap for PGM files of 2^29 and more pixels with 16 bits as well.  A largest sample
  that does not fit into `int` is taken for 0, and the rest of its digits for pixels.
* C151: on files shorter than a test reads, `stbi__refill_buffer` puts a 0 over the first byte, and `stbi__rewind` goes back to that buffer; later
  tests see a changed file.  Only files of fewer than four bytes are affected among PNG, JPEG, PGM and PPM files.  A file whose second byte is 0 or 1 can be
  taken for a TGA file whatever its first byte.
* C126: the PNG writer writes images with more than 16777216 rows, the decoder refuses them.
* C128: the JPEG writer collects bits in a signed `int` and shifts it to the left by 8 after each byte; this overflows (undefined
  behaviour) after every byte with its top bit set, for example for one black pixel.  Compilers shift the bits, and with that reading
  the files are right.
* C131: the JPEG writer cuts sides of 65536 pixels and more to 16 bits and reports success.  The coefficients of the colour
  differences are written with five digits; the deviation from T.871 is within the bound of C129.
* C134: `stbi__idct_block` overflows for large coefficients (`jpeg_idct_overflows`), which a corrupt file can contain: the decoder only
  checks that the product with the step fits 16 bits for the first coefficient.
* C143: a progressive JPEG file that is complete except for its end marker (for example a download that was cut off) loads "successfully",
  but `stbi__jpeg_finish` is skipped (`return 1` at stb_image.h:3441), so the pixels come from memory that was never written
  (`jpeg_prog_cut_uninit`); a progressive file without scan uses coefficients that were never written (`jpeg_prog_no_scan_uninit`).
* C142: a file with a frame header and no scan loads "successfully", with pixels from memory that was never written
  (`jpeg_no_scan_uninit`, 17 bytes).  A Huffman table with 256 codes of at most 9 bits gives the last code the number 255, which means "not
  in the table" in the table for short codes; using it fails an assertion (`jpeg_full_table_assert`), or decodes wrongly if assertions are
  switched off.  Large coefficients overflow the inverse transform (`jpeg_large_coefs_overflow`).  Nothing else can go wrong.
* C136: `stbi__resample_row_h_2` writes `(3 * input[w-2] + input[w-1] + 2) / 4` at position `2 * w - 2`, where interpolation (and the loop
  before it) would take `3 * input[w-1] + input[w-2]` (`jpeg_enlarge_columns_wrong`).  Files with the common 2x2 reduction are not affected.
