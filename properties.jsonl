{"id": "C01", "title": "Horizontal flip is the exact mirror", "statement": "A successful fcv_flip_x returns exactly width*height*4 initialised bytes in which the pixel at (x,y) equals, in all four channels, the input pixel at (width-1-x, y); no byte outside the input or output is touched.", "quantifier": "every image size (any width, height that fit uint32), every pixel content, every allocation outcome and both 32- and 64-bit size_t", "why_tests_cant": "A test fixes one image of one size; the claim is about index arithmetic at every size, including near the integer limits, and about every byte of the result.", "anchors": ["src/flip.c:fcv_flip_x"]}
{"id": "C02", "title": "Vertical flip is the exact mirror", "statement": "A successful fcv_flip_y returns width*height*4 initialised bytes in which pixel (x,y) equals input pixel (x, height-1-y) in all channels.", "quantifier": "every image size (any width, height that fit uint32), every pixel content, every allocation outcome and both 32- and 64-bit size_t", "why_tests_cant": "A test fixes one image of one size; the claim is about index arithmetic at every size, including near the integer limits, and about every byte of the result.", "anchors": ["src/flip.c:fcv_flip_y"]}
{"id": "C03", "title": "Transpose and transverse are exact", "statement": "fcv_transpose returns a height-by-width image whose pixel (x,y) is input pixel (y,x); fcv_transverse returns one whose pixel (x,y) is input pixel (width-1-y, height-1-x).", "quantifier": "every image size (any width, height that fit uint32), every pixel content, every allocation outcome and both 32- and 64-bit size_t", "why_tests_cant": "A test fixes one image of one size; the claim is about index arithmetic at every size, including near the integer limits, and about every byte of the result.", "anchors": ["src/flip.c:fcv_transpose", "src/flip.c:fcv_transverse"]}
{"id": "C04", "title": "Quarter-turn rotations are exact", "statement": "fcv_rotate_90_cw, fcv_rotate_180 and fcv_rotate_270_cw return the image rotated clockwise by the stated angle: every output pixel is the geometrically corresponding input pixel and every output byte is written.", "quantifier": "every image size (any width, height that fit uint32), every pixel content, every allocation outcome and both 32- and 64-bit size_t", "why_tests_cant": "A test fixes one image of one size; the claim is about index arithmetic at every size, including near the integer limits, and about every byte of the result.", "anchors": ["src/rotate.c:fcv_rotate_90_cw", "src/rotate.c:fcv_rotate_180", "src/rotate.c:fcv_rotate_270_cw"]}
{"id": "C05", "title": "Lossless transforms form the symmetry group of the rectangle", "statement": "Composing calls behaves like composing symmetries: flip_x twice, flip_y twice, rotate_180 twice, transpose twice, transverse twice, rotate_90 then rotate_270 and four quarter turns all return the original bytes; flip_x then flip_y equals rotate_180; transpose then flip_x equals rotate_90.", "quantifier": "every image and every composition listed", "why_tests_cant": "Round trips must restore every byte of every image; a test only samples images.", "anchors": ["src/flip.c", "src/rotate.c"]}
{"id": "C06", "title": "Crop returns exactly the requested rectangle", "statement": "When the rectangle lies inside the image, fcv_crop returns new_width*new_height*channels bytes equal to the requested sub-rectangle, for any channel count; reads stay inside the input.", "quantifier": "every image size, channel count, rectangle and content", "why_tests_cant": "A test fixes one image of one size; the claim is about index arithmetic at every size, including near the integer limits, and about every byte of the result.", "anchors": ["src/crop.c:fcv_crop"]}
{"id": "C07", "title": "Crop rejects every rectangle that is not inside the image", "statement": "fcv_crop returns NULL without reading the image or allocating for NULL data, for any zero dimension and for every rectangle that reaches past the right or bottom edge, including offsets whose sum would overflow 32 bits.", "quantifier": "every offset/size combination of 32-bit values", "why_tests_cant": "The dangerous cases are the ones near 2^32 that tests do not enumerate.", "anchors": ["src/crop.c:fcv_crop"]}
{"id": "C08", "title": "Crops compose", "statement": "Cropping the whole image returns the input bytes, and cropping a crop equals one crop at the summed offsets.", "quantifier": "every nested pair of rectangles", "why_tests_cant": "It is an equation over all nested rectangles.", "anchors": ["src/crop.c:fcv_crop"]}
{"id": "C09", "title": "Invalid arguments are rejected without side effects", "statement": "Each image function returns NULL, allocates nothing and frees nothing when the data pointer is NULL or a dimension is zero (or not positive).", "quantifier": "every function and every invalid argument combination", "why_tests_cant": "Needs all combinations of invalid arguments.", "anchors": ["src/*.c guards"]}
{"id": "C10", "title": "Allocation failure is handled everywhere", "statement": "If any allocation inside a library call fails, at any point, the call returns NULL, has freed every block it allocated, has freed nothing twice, and has not touched freed memory.", "quantifier": "every schedule of allocation failures for every library function that allocates", "why_tests_cant": "Tests never make malloc fail, let alone at each position.", "anchors": ["malloc/free sites of src/*.c"]}
{"id": "C11", "title": "A successful call leaks nothing", "statement": "When a library call succeeds the only new live block is the one returned to the caller; all temporaries were freed exactly once.", "quantifier": "every input and every function that allocates", "why_tests_cant": "Leak freedom ranges over every path.", "anchors": ["src/conversion.c", "src/sobel_edge_detection.c", "src/watershed_segmentation.c", "src/corner_peaks.c", "src/binary_closing_disk.c", "src/foerstner_corner.c"]}
{"id": "C12", "title": "Grayscale value is the documented integer luma", "statement": "Each byte returned by fcv_rgba_to_grayscale is floor((76 R + 150 G + 30 B)/256) of the corresponding pixel and ignores alpha; it lies in 0..255 and equals v when R=G=B=v; it is monotone in each channel.", "quantifier": "every image and pixel value", "why_tests_cant": "16.7 million colours times every position and size.", "anchors": ["src/rgba_to_grayscale.c:fcv_rgba_to_grayscale", "include/rgba_to_grayscale.h"]}
{"id": "C13", "title": "Grayscale RGBA output is gray and opaque, and grayscale is idempotent", "statement": "fcv_grayscale gives each pixel R=G=B=luma and alpha 255; applying it again changes nothing.", "quantifier": "every image whose byte length fits the 32-bit index the code uses", "why_tests_cant": "Quantifies over all images.", "anchors": ["src/conversion.c:fcv_grayscale"]}
{"id": "C14", "title": "Grayscale covers every pixel of every accepted image", "statement": "Every image accepted by fcv_grayscale (no NULL returned) has all its output bytes written.", "quantifier": "every accepted size, including images of 2^30 pixels or more", "why_tests_cant": "Only images of several gigabytes expose the 32-bit index wrap.", "anchors": ["src/conversion.c:fcv_grayscale"]}
{"id": "C15", "title": "Single-channel expansion inverts gray extraction", "statement": "fcv_single_to_multichannel gives R=G=B=v, A=255 for every byte, and fcv_rgba_to_grayscale of the result returns the original bytes.", "quantifier": "every single-channel image", "why_tests_cant": "Round trip over all images.", "anchors": ["src/single_to_multichannel.c:fcv_single_to_multichannel", "src/rgba_to_grayscale.c"]}
{"id": "C16", "title": "Contrast stretch is a monotone map with full range", "statement": "fcv_grayscale_stretch maps each pixel through one non-decreasing function of its luma; with low/high the 1/64 quantiles, values at or below low go to 0, at or above high go to 255 and a single-valued image is unchanged; at most num_pixels/64 pixels lie strictly below low and strictly above high.", "quantifier": "every image", "why_tests_cant": "Depends on the whole histogram of an arbitrary image.", "anchors": ["src/conversion.c:fcv_grayscale_stretch"]}
{"id": "C17", "title": "Global threshold is exact and binary", "statement": "fcv_apply_global_threshold sets each of the first n bytes to 255 if it exceeded the threshold and to 0 otherwise, and leaves all other bytes alone.", "quantifier": "every buffer, length and threshold", "why_tests_cant": "All buffers.", "anchors": ["src/conversion.c:fcv_apply_global_threshold"]}
{"id": "C18", "title": "Otsu output is a two-level image cut at one threshold", "statement": "fcv_otsu_threshold_rgba without double threshold returns opaque pixels that are pure black or white, and there is one threshold t in 0..255 such that a pixel is white exactly when its luma exceeds t.", "quantifier": "every image of fewer than 2^32 pixels (see C80 for larger ones)", "why_tests_cant": "The threshold comes out of floating-point statistics of an arbitrary image.", "anchors": ["src/conversion.c:fcv_otsu_threshold_rgba"]}
{"id": "C19", "title": "Otsu picks the first level of maximal computed between-class variance", "statement": "The threshold used is the smallest level whose between-class variance, as computed by the code in single precision from the normalised histogram, is the maximum over all levels with both classes non-empty; it is 0 when no level qualifies or all variances are 0.", "quantifier": "every histogram and every rounding behaviour", "why_tests_cant": "Argmax over all histograms.", "anchors": ["src/conversion.c:fcv_otsu_threshold_rgba"]}
{"id": "C20", "title": "Smooth threshold is a ramp of width 32 around the Otsu threshold", "statement": "With double threshold, pixels below t-16 become 0, pixels above t+16 become 255 and pixels in between are scaled linearly and monotonically, without division by zero.", "quantifier": "every image and every threshold t", "why_tests_cant": "Fails only for extreme thresholds (t<16 or t>239), which no test image reaches.", "anchors": ["src/conversion.c:apply_double_threshold", "src/conversion.c:fcv_otsu_threshold_rgba"]}
{"id": "C21", "title": "Blur with radius 0 is the identity and invalid radii are rejected", "statement": "fcv_apply_gaussian_blur returns an exact copy for radius 0 and NULL for negative, NaN, infinite or greater-than-1000 radii.", "quantifier": "every image and every double radius", "why_tests_cant": "All doubles.", "anchors": ["src/conversion.c:fcv_apply_gaussian_blur"]}
{"id": "C22", "title": "Blur never leaves its buffers and writes every byte", "statement": "For every accepted radius all kernel and image accesses of the blur are in bounds, each weight sum is positive and every output byte is written with alpha 255.", "quantifier": "every image whose byte size fits 32 bits and every radius in (0,1000], integer or fractional", "why_tests_cant": "Fractional radii and borders interact in the index arithmetic.", "anchors": ["src/conversion.c:fcv_apply_gaussian_blur"]}
{"id": "C23", "title": "Blur is an average: no overshoot", "statement": "In each channel a blurred value never exceeds the largest and never falls below the smallest input value of its window by more than the truncation to a byte; conversion to uint8 never overflows.", "quantifier": "every image, radius and floating-point rounding", "why_tests_cant": "Floating-point accumulation over arbitrary data.", "anchors": ["src/conversion.c:fcv_apply_gaussian_blur"]}
{"id": "C24", "title": "Resize output size is the truncated product and degenerate sizes are rejected", "statement": "fcv_resize returns floor(width*resize_x) by floor(height*resize_y) (product in double), or NULL when a factor is not positive and finite, when a product exceeds 2^32-1 or an output dimension is 0.", "quantifier": "every size and factor", "why_tests_cant": "All doubles.", "anchors": ["src/conversion.c:fcv_resize"]}
{"id": "C25", "title": "Resize by factor 1 copies the colours", "statement": "fcv_resize with both factors 1.0 returns the same dimensions and the same R,G,B for each pixel, alpha 255.", "quantifier": "every image", "why_tests_cant": "Rounding must be exact at every coordinate.", "anchors": ["src/conversion.c:fcv_resize"]}
{"id": "C26", "title": "Resize never reads outside the source and interpolates between source pixels", "statement": "Every source access of fcv_resize is inside the image and each output colour lies between the minimum and maximum of the sampled source colours; a constant image stays constant.", "quantifier": "every image, factor pair and coordinate", "why_tests_cant": "Floating-point coordinates at every position.", "anchors": ["src/conversion.c:fcv_resize"]}
{"id": "C27", "title": "Resize gives every output pixel a source contribution", "statement": "No output pixel of fcv_resize is black merely because no source pixel was sampled (total weight 0).", "quantifier": "every size and factor pair, including shrinking one axis while enlarging the other", "why_tests_cant": "Needs the mixed-factor corner cases at the image border.", "anchors": ["src/conversion.c:fcv_resize"]}
{"id": "C28", "title": "Drawing never writes outside the image", "statement": "fcv_draw_circle and fcv_draw_disk only modify bytes of in-image pixels, whatever the centre and radius (off-image shapes are clipped), and never invoke undefined behaviour for any finite centre and any radius they accept.", "quantifier": "every image size, centre, radius and channel count", "why_tests_cant": "Clipping and integer overflow at extreme coordinates.", "anchors": ["src/draw.c:fcv_draw_circle", "src/draw.c:fcv_draw_disk", "src/draw.c:fcv_set_circle_pixel"]}
{"id": "C29", "title": "Drawing only changes pixels near the shape and uses one colour", "statement": "Each byte changed by a draw call belongs to a pixel whose offset from the centre is at most max(radius, 1) in each axis and at most radius+1 in distance and, for 3/4 channels, the pixel becomes exactly the requested colour (opaque for RGBA).", "quantifier": "every image with sides below 2^31, every radius up to 5e8 and centre up to 1e9 in size (beyond: C28)", "why_tests_cant": "All pixels of all images.", "anchors": ["src/draw.c"]}
{"id": "C30", "title": "A disk covers its centre cross and is symmetric", "statement": "fcv_draw_disk colours the centre pixel and is symmetric under reflection in both axes through the centre; the same set of offsets is drawn wherever the centre is; it contains everything within distance radius-2 and nothing beyond radius+1.", "quantifier": "every radius up to 5e8 and centre up to 1e9 in size, every image with sides below 2^31 (beyond: C28)", "why_tests_cant": "All radii.", "anchors": ["src/draw.c:fcv_draw_disk"]}
{"id": "C31", "title": "Border adds exactly border_width pixels on each side and keeps the image", "statement": "fcv_add_border returns a (w+2b) by (h+2b) image whose interior equals the input and whose frame has exactly the requested colour; cropping the interior returns the input.", "quantifier": "every size and border width with an output of at most 2^32 bytes (beyond: C32), channel count 1, 3, 4", "why_tests_cant": "All sizes.", "anchors": ["src/draw.c:fcv_add_border", "src/crop.c:fcv_crop"]}
{"id": "C32", "title": "Border writes every output byte", "statement": "Each byte of the image returned by fcv_add_border is initialised, for every accepted channel count.", "quantifier": "every accepted channel count and size", "why_tests_cant": "Channel counts 2 and >4 are accepted but not drawn; large images wrap 32-bit indices.", "anchors": ["src/draw.c:fcv_add_border"]}
{"id": "C33", "title": "Hex colours parse exactly, everything else is white", "statement": "fcv_parse_hex_color accepts an optional # followed by exactly six hex digits of either case and returns their three byte values; every other string gives white.", "quantifier": "every NUL-terminated string", "why_tests_cant": "All strings.", "anchors": ["src/parse_hex_color.c:fcv_parse_hex_color"]}
{"id": "C34", "title": "Binarisation by colour marks exactly the foreground colour", "statement": "fcv_convert_to_binary returns 255 for pixels whose R,G,B equal the foreground colour and 0 for all others, ignoring alpha and background colour.", "quantifier": "every image and colour pair", "why_tests_cant": "All images.", "anchors": ["src/convert_to_binary.c:fcv_convert_to_binary"]}
{"id": "C35", "title": "Dilation and erosion are the disk morphology operators", "statement": "fcv_binary_dilation_disk sets a pixel to 255 exactly when a 255 pixel lies within dx^2+dy^2 <= (r+0.5)^2 of it; fcv_binary_erosion_disk exactly when every pixel of the disk around it is inside the image and 255; outputs contain only 0 and 255.", "quantifier": "every image and radius in the range where the int32 arithmetic is defined", "why_tests_cant": "All images and radii.", "anchors": ["src/binary_closing_disk.c:fcv_binary_dilation_disk", "src/binary_closing_disk.c:fcv_binary_erosion_disk"]}
{"id": "C36", "title": "Closing is a closing", "statement": "fcv_binary_closing_disk keeps every white pixel, is increasing in the set of white pixels and is idempotent, also at the image border.", "quantifier": "every image and radius in the range where the int32 arithmetic is defined (see C38)", "why_tests_cant": "Algebraic laws over all images.", "anchors": ["src/binary_closing_disk.c:fcv_binary_closing_disk"]}
{"id": "C37", "title": "Opening is an opening", "statement": "fcv_binary_opening_disk never adds white pixels, is increasing and idempotent.", "quantifier": "every image and radius in the range where the int32 arithmetic is defined (see C38)", "why_tests_cant": "Algebraic laws over all images.", "anchors": ["src/binary_closing_disk.c:fcv_binary_opening_disk"]}
{"id": "C38", "title": "Morphology accepts any radius", "statement": "Morphology functions are free of undefined behaviour for every non-negative int32 radius they accept.", "quantifier": "every radius up to INT32_MAX", "why_tests_cant": "Radii of 32768 and more overflow dx*dx+dy*dy; no test uses them.", "anchors": ["src/binary_closing_disk.c"]}
{"id": "C39", "title": "Trim removes only uniform borders", "statement": "fcv_trim returns a non-empty sub-rectangle of the input and reports its size; every removed column (row) was a single colour over the extent that was examined when it was removed.", "quantifier": "every image of at most 2^32 bytes and every channel count (beyond: C71)", "why_tests_cant": "All images.", "anchors": ["src/trim.c:fcv_trim"]}
{"id": "C40", "title": "Trim keeps removing until no uniform border is left", "statement": "After fcv_trim no outermost row or column of the result is a single colour unless the result is one pixel wide/high in that direction; trimming twice equals trimming once.", "quantifier": "every image", "why_tests_cant": "Depends on arbitrary content; the documentation states it.", "anchors": ["src/trim.c:fcv_trim", "tests/cli/trim.md"]}
{"id": "C41", "title": "Threshold trim generalises trim", "statement": "fcv_trim_threshold with a tolerance that truncates to 0 (percent up to 0.392, or negative) behaves as fcv_trim; the tolerance for whole percentages n is floor(255 n / 100); otherwise each removed line differs from its reference pixel by at most the tolerance in each channel; NaN and infinities are rejected; values above 100 act as 100.", "quantifier": "every image and every double threshold", "why_tests_cant": "All images and doubles.", "anchors": ["src/trim.c:fcv_trim_threshold"]}
{"id": "C42", "title": "Histogram image shows the true counts", "statement": "fcv_generate_histogram returns a 256x200 opaque image whose column v has, per channel, exactly floor(200*count(v)/maxcount) coloured pixels from the bottom; gray images give white bars; the most frequent value fills the column.", "quantifier": "every image with fewer than 2^32/200 pixels", "why_tests_cant": "All images.", "anchors": ["src/histogram.c:fcv_generate_histogram"]}
{"id": "C43", "title": "Watershed terminates", "statement": "fcv_watershed_segmentation returns for every valid input, including duplicate markers and more markers than pixels.", "quantifier": "every image, marker list and boundary mode", "why_tests_cant": "Termination cannot be tested.", "anchors": ["src/watershed_segmentation.c:fcv_watershed_segmentation"]}
{"id": "C44", "title": "Watershed labels every pixel when boundaries are off", "statement": "With create_boundaries=false and at least one marker every output pixel has a region colour (none stays background black).", "quantifier": "every image of at most 2^30 pixels (larger ones: C77) and every marker set", "why_tests_cant": "Reachability over arbitrary elevation maps.", "anchors": ["src/watershed_segmentation.c:fcv_watershed_segmentation"]}
{"id": "C45", "title": "Watershed regions are connected to their marker", "statement": "Each labelled pixel is joined to the marker of its label by a 4-connected path of pixels with that label, and each distinct marker pixel keeps its own label.", "quantifier": "every image of at most 2^30 pixels (larger ones: C77) and every marker set", "why_tests_cant": "Inductive path property.", "anchors": ["src/watershed_segmentation.c:fcv_watershed_segmentation"]}
{"id": "C46", "title": "Watershed floods in elevation order", "statement": "A pixel is labelled by the time level L has been processed exactly when some 4-path from a marker reaches it with all pixels after the marker at or below L (boundaries off).", "quantifier": "every image of at most 2^30 pixels (larger ones: C77), marker set and level", "why_tests_cant": "Minimax path property of arbitrary images.", "anchors": ["src/watershed_segmentation.c:fcv_watershed_segmentation"]}
{"id": "C47", "title": "Watershed rejects markers outside the image", "statement": "If any marker has a non-finite coordinate or truncates to a position outside the image the call returns NULL and allocates nothing.", "quantifier": "every marker list", "why_tests_cant": "All doubles.", "anchors": ["src/watershed_segmentation.c:fcv_watershed_segmentation"]}
{"id": "C48", "title": "Corner peaks are separated", "statement": "Any two points returned by fcv_corner_peaks are at least min_distance apart.", "quantifier": "every response image of fewer than 2^32 pixels, all finite thresholds and every distance", "why_tests_cant": "Greedy suppression over arbitrary candidate sets.", "anchors": ["src/corner_peaks.c:fcv_corner_peaks"]}
{"id": "C49", "title": "Corner peaks are qualified local maxima", "statement": "Each returned point is an interior pixel whose response is non-zero, at least as large as its eight neighbours, and exceeds both thresholds; points are distinct and in row-major order.", "quantifier": "every response image of at most 2^31 pixels (larger ones: C78), all finite thresholds and every distance", "why_tests_cant": "All images.", "anchors": ["src/corner_peaks.c:fcv_corner_peaks"]}
{"id": "C50", "title": "Suppression only yields to something at least as strong", "statement": "Each qualified local maximum that is not returned lies within min_distance of another qualified maximum with at least its response; if there is any qualified maximum at least one point is returned.", "quantifier": "every response image of at most 2^31 pixels (larger ones: C78), all finite thresholds and every distance", "why_tests_cant": "Greedy algorithm over arbitrary input.", "anchors": ["src/corner_peaks.c:fcv_corner_peaks"]}
{"id": "C51", "title": "Sobel output is normalised and flat images give zero", "statement": "fcv_sobel_edge_detection returns one byte per pixel; if gradient magnitude is constant all bytes are 0, otherwise the strongest pixels are exactly 255, the weakest exactly 0, and a stronger gradient never gives a smaller byte.", "quantifier": "every image of 1 or 4 channels and any monotone rounding", "why_tests_cant": "Floating-point normalisation of arbitrary data.", "anchors": ["src/sobel_edge_detection.c:fcv_sobel_edge_detection"]}
{"id": "C52", "title": "Sobel supports the documented channel counts in bounds", "statement": "fcv_sobel_edge_detection reads only width*height*channels bytes for the documented channel counts 1, 3 and 4.", "quantifier": "every size and documented channel count", "why_tests_cant": "The RGB case is never tested and reads past the buffer.", "anchors": ["src/sobel_edge_detection.c:fcv_sobel_edge_detection"]}
{"id": "C53", "title": "EXIF orientation round-trips", "statement": "For every well-formed JPEG header (any sequence of other segments, either byte order, any IFD entries before the orientation entry) fcv_get_exif_orientation returns the stored value.", "quantifier": "every well-formed file and both byte orders", "why_tests_cant": "All files.", "anchors": ["src/exif.c:fcv_get_exif_orientation"]}
{"id": "C54", "title": "EXIF reading terminates on every file", "statement": "fcv_get_exif_orientation returns for every file content.", "quantifier": "every byte sequence", "why_tests_cant": "A 4-byte truncated file makes it loop for ever; a test would hang.", "anchors": ["src/exif.c:fcv_get_exif_orientation"]}
{"id": "C55", "title": "Files without EXIF orientation give 1", "statement": "For unreadable files, files that do not start with FF D8 and JPEGs whose segments contain no EXIF block before the image data, the result is 1.", "quantifier": "every such file", "why_tests_cant": "All files.", "anchors": ["src/exif.c:fcv_get_exif_orientation"]}
{"id": "C56", "title": "EXIF orientation is undone by the right transform", "statement": "The CLI maps orientation codes 2..8 to the transform that restores the upright image, and swaps the dimensions exactly for 5..8; other codes leave the image alone.", "quantifier": "every image and every orientation value", "why_tests_cant": "All images.", "anchors": ["src/cli.c:main"]}
{"id": "C57", "title": "The linear solver solves", "statement": "When solve_linear_system reports success the returned vector satisfies all eight equations (exact arithmetic).", "quantifier": "every 8x8 system", "why_tests_cant": "All matrices.", "anchors": ["src/perspectivetransform.c:solve_linear_system"]}
{"id": "C58", "title": "Perspective transform maps corners to corners", "statement": "A matrix returned by fcv_calculate_perspective_transform other than the identity fallback maps each of the four source corners to the corresponding destination corner (exact arithmetic); non-finite corners give the identity.", "quantifier": "every pair of corner quadruples", "why_tests_cant": "All real inputs.", "anchors": ["src/perspectivetransform.c:fcv_calculate_perspective_transform"]}
{"id": "C59", "title": "Applying a matrix stays in bounds and identity copies", "statement": "fcv_apply_matrix_3x3 reads only inside the source, writes only inside the output and yields transparent black for pixels mapped outside; the identity matrix copies the image when sizes agree.", "quantifier": "every image, size and matrix whose mapped coordinates fit int32", "why_tests_cant": "All matrices.", "anchors": ["src/perspectivetransform.c:fcv_apply_matrix_3x3"]}
{"id": "C60", "title": "Corner sorting is a permutation starting at the top-left", "statement": "For four or more corners the result array is a permutation of the input, ordered by angle around the centroid; for three corners it contains the three inputs and one completing corner.", "quantifier": "every corner list of length at least 3", "why_tests_cant": "All corner lists.", "anchors": ["src/sort_corners.c:sort_corners"]}
{"id": "C61", "title": "Corner detection is memory safe for every number of detected peaks", "statement": "The selection step of fcv_detect_corners stays inside its arrays whatever the number of detected peaks (0, 1, 2, 3, 4 or more).", "quantifier": "every peak count", "why_tests_cant": "Images producing 0..3 peaks crash; the test images never do.", "anchors": ["src/corner_detection.c:fcv_detect_corners", "src/sort_corners.c:sort_corners"]}
{"id": "C62", "title": "CLI rotate accepts exactly the multiples of 90", "statement": "The rotate operation normalises any int angle, negative included, to 0/90/180/270, swaps the dimensions exactly for odd quarter turns, and fails for other angles.", "quantifier": "every int angle and image", "why_tests_cant": "All ints.", "anchors": ["src/cli.c:apply_operation"]}
{"id": "C63", "title": "CLI crop clamps to the image", "statement": "The crop operation clamps negative offsets to 0 and the size to the image, returns the corresponding sub-rectangle, and fails when the offset is outside.", "quantifier": "every geometry and image", "why_tests_cant": "All geometries.", "anchors": ["src/cli.c:apply_operation", "src/cli.c:parse_geometry"]}
{"id": "C64", "title": "Geometry strings parse to what they print", "statement": "parse_geometry accepts WxH, WxH+X and WxH+X+Y with decimal numbers (signs on offsets) and returns exactly those numbers; zero or oversized dimensions are rejected.", "quantifier": "every geometry string", "why_tests_cant": "All strings.", "anchors": ["src/cli.c:parse_geometry"]}
{"id": "C65", "title": "Pipeline text splits into its operations", "statement": "parse_pipeline yields, in order, one operation per non-blank comma-separated piece with surrounding blanks and one pair of parentheses removed; splitting the same text into several arguments at spaces does not change the result; the work buffer never overflows.", "quantifier": "every argument list", "why_tests_cant": "All strings.", "anchors": ["src/cli.c:parse_pipeline", "src/cli.c:trim_whitespace", "src/cli.c:add_operation"]}
{"id": "C66", "title": "The pipeline keeps image data and dimensions consistent", "statement": "After every operation of any pipeline, the current buffer holds exactly width*height*4 initialised bytes for the reported dimensions.", "quantifier": "every sequence of operations and every input image", "why_tests_cant": "Sequences of arbitrary length.", "anchors": ["src/cli.c:execute_pipeline", "src/cli.c:apply_operation"]}
{"id": "C67", "title": "The pipeline frees every intermediate image exactly once", "statement": "Whatever operations run and wherever one fails, all intermediate images are freed exactly once, the input is never freed by the pipeline, and only the result remains.", "quantifier": "every sequence of operations and failure point", "why_tests_cant": "All histories and failure points.", "anchors": ["src/cli.c:execute_pipeline", "src/cli.c:main"]}
{"id": "C68", "title": "Foerstner response is bounded, normalised and in bounds", "statement": "fcv_foerstner_corner returns two bytes per pixel in 0..255, border pixels within the kernel half-width are 0, and accesses stay in bounds for every image size.", "quantifier": "every image size and content", "why_tests_cant": "Tiny images (smaller than the kernel half-width) underflow an unsigned bound.", "anchors": ["src/foerstner_corner.c:fcv_foerstner_corner"]}
{"id": "C69", "title": "Distinct colour count is exact", "statement": "count_colors returns the number of distinct RGB values among pixels with non-zero alpha.", "quantifier": "every image of fewer than 2^29 pixels (see C82 for larger ones)", "why_tests_cant": "All images.", "anchors": ["src/corner_detection.c:count_colors"]}
{"id": "C70", "title": "White drawn on a grayscale image is 255", "statement": "The luminance used when drawing on one-channel images maps white to 255, black to 0, is monotone in each channel and never leaves 0..255.", "quantifier": "every colour", "why_tests_cant": "Double rounding for 16.7 million colours.", "anchors": ["src/draw.c:fcv_set_circle_pixel", "src/draw.c:fcv_add_border"]}
{"id": "C71", "title": "Trim works for every image size it accepts", "statement": "fcv_trim meets the description of C39 for every image it accepts, also beyond 2^32 bytes.", "quantifier": "every image size", "why_tests_cant": "Needs an image over 4 GiB; the 32-bit offsets wrap there.", "anchors": ["src/trim.c:fcv_trim"]}
{"id": "C72", "title": "Histogram picture is right for every image size", "statement": "The description of C42 holds for every image the function accepts, also with 2^32/200 or more pixels.", "quantifier": "every image size below 2^32 pixels", "why_tests_cant": "Needs an image over 21 megapixels with one dominant value; the product count*200 overflows there.", "anchors": ["src/histogram.c:fcv_generate_histogram"]}
{"id": "C73", "title": "Reading EXIF data has no undefined behaviour", "statement": "Whatever bytes the file contains, fcv_get_exif_orientation performs only defined arithmetic and returns a number from 0 to 65535.", "quantifier": "every file content", "why_tests_cant": "All files; a shifted byte overflows int only for counts or offsets with the top bit set.", "anchors": ["src/exif.c:fcv_get_exif_orientation", "src/exif.c:read_u32"]}
{"id": "C74", "title": "JPEG fill bytes do not hide the orientation", "statement": "A fill byte FF, which the JPEG standard allows before any marker, does not change the orientation that is found.", "quantifier": "every JPEG with an orientation entry", "why_tests_cant": "Needs files from writers that pad markers.", "anchors": ["src/exif.c:fcv_get_exif_orientation"]}
{"id": "C75", "title": "Watershed boundaries lie between regions", "statement": "With create_boundaries=true a pixel that stays uncoloured although a neighbour is coloured has neighbours of two different regions.", "quantifier": "every image of at most 2^30 pixels and every marker set", "why_tests_cant": "Property of the final state of an iteration over arbitrary images.", "anchors": ["src/watershed_segmentation.c:fcv_watershed_segmentation"]}
{"id": "C76", "title": "Watershed boundaries separate the regions", "statement": "With create_boundaries=true pixels of different regions are never adjacent.", "quantifier": "every image and marker set", "why_tests_cant": "Needs two fronts meeting between two pixels.", "anchors": ["src/watershed_segmentation.c:fcv_watershed_segmentation"]}
{"id": "C77", "title": "Watershed works for every image size it accepts", "statement": "For every image whose buffers fit in memory the result is a fully initialised picture of a labelling, or NULL because an allocation failed.", "quantifier": "every image size", "why_tests_cant": "Needs an image over 2^30 pixels.", "anchors": ["src/watershed_segmentation.c:fcv_watershed_segmentation"]}
{"id": "C78", "title": "Corner peaks work for every image size accepted", "statement": "For every response image whose buffers fit in memory each returned point is a qualified local maximum of the image.", "quantifier": "every response image, without a bound on its size", "why_tests_cant": "Needs an image of more than 2^31 pixels.", "anchors": ["src/corner_peaks.c:fcv_corner_peaks"]}
{"id": "C79", "title": "Otsu keeps black and white for an image with two gray levels", "statement": "If an image has at least two different gray values, its Otsu result has at least one black and one white pixel.", "quantifier": "every image with at least two gray values", "why_tests_cant": "Needs a histogram on which the single-precision cumulative sum misses 1.", "anchors": ["src/conversion.c:fcv_otsu_threshold_rgba"]}
{"id": "C80", "title": "Otsu handles every image size", "statement": "fcv_otsu_threshold_rgba terminates on every image that fits in memory.", "quantifier": "every image size", "why_tests_cant": "Needs an image of 2^32 pixels.", "anchors": ["src/conversion.c:fcv_otsu_threshold_rgba"]}
{"id": "C81", "title": "EXIF orientation stays consistent when memory runs out", "statement": "If the orientation transform cannot allocate its result, the CLI continues with bytes and dimensions that belong together (the stored image with its stored size).", "quantifier": "every image, orientation and allocation failure", "why_tests_cant": "Needs malloc to fail at exactly that point.", "anchors": ["src/cli.c:main"]}
{"id": "C82", "title": "Colour counting works for every int-sized image", "statement": "count_colors computes its result without signed overflow for every image with positive int dimensions that fits in memory.", "quantifier": "every image size", "why_tests_cant": "Needs an image of 2^29 pixels.", "anchors": ["src/corner_detection.c:count_colors"]}
{"id": "C83", "title": "Blur is a Gaussian mean", "statement": "fcv_apply_gaussian_blur returns, in each channel, the mean over the window of the given radius weighted by the Gaussian with standard deviation radius/3, first along rows and then along columns, up to the truncation to a byte in each pass.", "quantifier": "every image below 2^32 bytes and every accepted radius, integer or fractional", "why_tests_cant": "A test compares a few images with a reference; the weights are computed in floating point for every radius.", "anchors": ["src/conversion.c:fcv_apply_gaussian_blur"]}
{"id": "C84", "title": "Blur treats left and right alike", "statement": "Blurring the mirrored image gives the mirrored blurred image, up to 2 grey levels of rounding.", "quantifier": "every image and radius", "why_tests_cant": "Needs all radii; integer radii hide the asymmetry.", "anchors": ["src/conversion.c:fcv_apply_gaussian_blur"]}
{"id": "C85", "title": "Blur keeps flat areas", "statement": "Blurring an image of one colour leaves its colour channels unchanged.", "quantifier": "every flat image and radius", "why_tests_cant": "The rounding of the weight sums decides; almost all sample values work.", "anchors": ["src/conversion.c:fcv_apply_gaussian_blur"]}
{"id": "C86", "title": "Resize interpolates when enlarging and averages each footprint when shrinking", "statement": "Enlarging in both directions gives each output pixel the bilinear interpolation of the source at the centre of the output pixel, rounded to nearest; shrinking gives the mean of the source over the area the output pixel covers.", "quantifier": "every image and factor pair", "why_tests_cant": "Needs the exact weights of every source pixel for all factors, with rounding.", "anchors": ["src/conversion.c:fcv_resize"]}
{"id": "C87", "title": "Resize treats left and right alike", "statement": "When the width times the factor is whole, resizing the mirrored image gives the mirrored result up to one level per channel.", "quantifier": "every image and factor pair", "why_tests_cant": "A half-pixel shift is invisible to a golden image.", "anchors": ["src/conversion.c:fcv_resize"]}
{"id": "C88", "title": "Resize initialises every byte of its result", "statement": "Every byte of a non-NULL result of fcv_resize has been written, however large the output is.", "quantifier": "every image and factor pair whose output fits memory", "why_tests_cant": "Outputs beyond 4 GiB cannot be tested in practice.", "anchors": ["src/conversion.c:fcv_resize"]}
{"id": "C89", "title": "Sobel bytes are the rescaled gradient strength", "statement": "Every byte returned by fcv_sobel_edge_detection is the length of the Sobel gradient (nearest pixel outside the image), rescaled linearly from the range found in the image to 0..255 and cut to an integer, up to a rounding error far below one level.", "quantifier": "every image of 1 or 4 channels whose range is not empty", "why_tests_cant": "Needs the exact value at every pixel of every image, including rounding of square roots.", "anchors": ["src/sobel_edge_detection.c:fcv_sobel_edge_detection"]}
{"id": "C90", "title": "Smart black-and-white compares each pixel with its surroundings", "statement": "Without smoothing, fcv_bw_smart returns an opaque image in which a pixel is white exactly if its luma minus the luma of its blurred surroundings (blur radius a tenth of the square root of the pixel count, difference offset by 127 and clamped to a byte) exceeds one level common to the whole image.", "quantifier": "every image of at most 10^8 pixels and every exp of the stated accuracy", "why_tests_cant": "Composition of four numeric steps over all images; a golden image fixes one level only.", "anchors": ["src/conversion.c:fcv_bw_smart"]}
{"id": "C91", "title": "Smart black-and-white returns a result for every image", "statement": "fcv_bw_smart returns NULL for a valid image of at most 2^30 pixels only if memory runs out.", "quantifier": "every image size", "why_tests_cant": "Needs an image of more than 100 megapixels, where the derived blur radius exceeds the limit of the blur.", "anchors": ["src/conversion.c:fcv_bw_smart", "src/conversion.c:fcv_apply_gaussian_blur"]}
{"id": "C92", "title": "A blank page stays blank", "statement": "fcv_bw_smart turns an image of one gray value into an image of one colour.", "quantifier": "every gray value and image size", "why_tests_cant": "The rounding inside the blur decides; it depends on the position, the gray value and the size.", "anchors": ["src/conversion.c:fcv_bw_smart"]}
{"id": "C93", "title": "Foerstner bytes are the scaled corner measures", "statement": "The two bytes per pixel returned by fcv_foerstner_corner are Foerstner's w (determinant over trace) and q (four determinants over squared trace) of the gradient products averaged over the window, each scaled linearly so that the largest value becomes 255, up to rounding.", "quantifier": "every image and sigma whose window fits", "why_tests_cant": "A relation between every output byte and sums over whole windows; samples do not bound the rounding error.", "anchors": ["src/foerstner_corner.c:fcv_foerstner_corner"]}
{"id": "C94", "title": "A linear ramp has no corners", "statement": "An image whose brightness is a linear function of the position gets corner response 0 everywhere.", "quantifier": "every ramp", "why_tests_cant": "Rounding decides: most slopes give 0, some are normalised to full strength.", "anchors": ["src/foerstner_corner.c:fcv_foerstner_corner"]}
{"id": "C95", "title": "The strongest corner has response 255", "statement": "If any response in a channel is non-zero, some pixel of that channel has the value 255.", "quantifier": "every image", "why_tests_cant": "Depends on how one quotient rounds; random images show both outcomes.", "anchors": ["src/foerstner_corner.c:fcv_foerstner_corner"]}
{"id": "C96", "title": "The perspective matrix is unique", "statement": "If some homography with last coefficient 1 sends the four source corners to the four destination corners, fcv_calculate_perspective_transform returns exactly that one or the identity fallback (exact arithmetic); equal corners always give the identity; systems without a unique solution are never reported as solved.", "quantifier": "every pair of corner quadruples", "why_tests_cant": "All real inputs.", "anchors": ["src/perspectivetransform.c:fcv_calculate_perspective_transform", "src/perspectivetransform.c:solve_linear_system"]}
{"id": "C97", "title": "The perspective matrix is always finite and usable", "statement": "For any sixteen doubles, NaN and infinities included, fcv_calculate_perspective_transform has no undefined behaviour and returns a matrix of finite coefficients, also when memory runs out.", "quantifier": "every pair of corner quadruples of doubles and every allocation outcome", "why_tests_cant": "2^1024 inputs; malloc never fails in tests.", "anchors": ["src/perspectivetransform.c:fcv_calculate_perspective_transform"]}
{"id": "C98", "title": "Proper quadrilaterals never fall back to the identity", "statement": "If no three source corners and no three destination corners are on a line, the computed matrix is not the identity fallback (unless it is the right answer).", "quantifier": "every pair of proper quadrilaterals", "why_tests_cant": "All real inputs; only extreme scales show the fallback.", "anchors": ["src/perspectivetransform.c:fcv_calculate_perspective_transform"]}
{"id": "C99", "title": "Warped pixels are interpolated source pixels", "statement": "Each pixel returned by fcv_apply_matrix_3x3 is the bilinear interpolation of the four source pixels around the transformed position, cut to an integer (with an error of at most one); if the transformed position is a grid point, it is exactly that source pixel.", "quantifier": "every image and matrix", "why_tests_cant": "All matrices and images; rounding of three products and a quotient.", "anchors": ["src/perspectivetransform.c:fcv_apply_matrix_3x3"]}
{"id": "C100", "title": "Applying a matrix does not change the matrix", "statement": "After fcv_apply_matrix_3x3 the matrix object has the coefficients it had before, so it can be used for another image.", "quantifier": "every matrix and image", "why_tests_cant": "Only matrices with two coefficients near -1 show it.", "anchors": ["src/perspectivetransform.c:fcv_apply_matrix_3x3"]}
{"id": "C101", "title": "Corners of an upright rectangle come back in reading order", "statement": "Given the four corners of an upright rectangle in any order, or any three of them, sort_corners returns top-left, top-right, bottom-right, bottom-left, scaled by the ratio of the image sizes.", "quantifier": "every upright rectangle with integer corners and moderate aspect ratio, every order of its corners", "why_tests_cant": "All rectangles times 48 orders; depends on rounding in the centroid and the angles.", "anchors": ["src/sort_corners.c:sort_corners"]}
{"id": "C102", "title": "Three corners are completed to a parallelogram", "statement": "Given three corners of a parallelogram, the corner added by sort_corners is the fourth corner of a parallelogram.", "quantifier": "every three corners", "why_tests_cant": "Upright rectangles, the usual test data, behave well; rotated ones do not.", "anchors": ["src/sort_corners.c:sort_corners"]}
{"id": "C103", "title": "Detected corners lie inside the image and are peaks of the corner response", "statement": "The four corners returned by fcv_detect_corners are coordinates inside the given image, and they are four different local maxima of the corner response of the segmented image, kept apart by the minimum distance, rescaled to the image.", "quantifier": "every RGBA image for which the call returns", "why_tests_cant": "The search runs over thresholds and an angular selection; a test checks a few photographs within a tolerance.", "anchors": ["src/corner_detection.c:fcv_detect_corners", "src/sort_corners.c:sort_corners"]}
{"id": "C104", "title": "Corner detection releases its working memory", "statement": "When fcv_detect_corners returns, every block it allocated has been released, so it can be called for many images.", "quantifier": "every RGBA image for which the call returns", "why_tests_cant": "Leaks do not change the returned corners.", "anchors": ["src/corner_detection.c:fcv_detect_corners"]}
{"id": "C105", "title": "The corner search stops at the first thresholds that give four peaks", "statement": "fcv_detect_corners lowers its two thresholds step by step, uses the first setting for which at least four peaks exist, and stops after at most eight attempts.", "quantifier": "every RGBA image", "why_tests_cant": "Termination and the sequence of thresholds are invisible in the result.", "anchors": ["src/corner_detection.c:fcv_detect_corners"]}
{"id": "C106", "title": "The tool releases all its memory", "statement": "Whatever the arguments, the files found and the allocations that fail, every run of the command line tool that returns has released each block it allocated exactly once, on the success path and on each of the error paths.", "quantifier": "all argument lists, file contents and allocation failures", "why_tests_cant": "Error paths multiply with the operations; a leak or double free on one of them has no visible effect in a test.", "anchors": ["src/cli.c:main", "src/cli.c:execute_pipeline", "src/cli.c:free_pipeline"]}
{"id": "C107", "title": "Each operation of a pipeline does what its words say", "statement": "A piece of the pipeline text such as blur 5, resize 50%, crop 10x20+0+0 or border FF0000 4 is understood as the operation it names with the parameters it gives, and unless memory runs out its result is the image that this operation should give: its size, and its pixels up to the accuracy stated for the operation alone (C12 to C42, C45, C59, C83, C86, C89, C90).", "quantifier": "every RGBA image of fewer than 2^28 pixels, every operation except the four that detect corners, all parameter texts, every atof", "why_tests_cant": "Twenty-six forms of operations times their parameters; the dispatch passes values through strings, doubles and casts.", "anchors": ["src/cli.c:apply_operation", "src/cli.c:parse_pipeline"]}
{"id": "C108", "title": "Pipelines compose", "statement": "Running a pipeline gives the last of a sequence of images, each of which is what the next piece asks for of the image before; the intermediate images are released and the input is kept.", "quantifier": "every non-empty pipeline of operations that detect no corners, every RGBA image, images of fewer than 2^28 pixels on the way", "why_tests_cant": "All sequences of operations.", "anchors": ["src/cli.c:execute_pipeline"]}
{"id": "C109", "title": "The command line tool writes what the command line asks for", "statement": "If the input file is decoded to an image, then this image, put upright by its EXIF orientation if the file is named as a JPEG, is taken through the pipeline in the order of its pieces, and the result is written to the output file with its size and pixels, as JPEG or PNG depending on the extension; the status is 0 exactly if the file could be written.", "quantifier": "all command lines with an input, a non-empty pipeline without corner detection and an output, all files, all atof; no failing allocation", "why_tests_cant": "The composition of parsing, EXIF reading, orientation, the operations and saving, for all inputs.", "anchors": ["src/cli.c:main", "src/cli.c:parse_pipeline", "src/cli.c:execute_pipeline", "src/exif.c:fcv_get_exif_orientation"]}
{"id": "C110", "title": "An explicit size is obeyed", "statement": "The operation resize WxH (two pixel numbers) gives an image of exactly W by H pixels.", "quantifier": "every image and every W and H", "why_tests_cant": "The size goes through a quotient and a product of doubles; most sizes come back, some lose a pixel.", "anchors": ["src/cli.c:apply_operation", "src/conversion.c:fcv_resize"]}
{"id": "C111", "title": "Extraction chooses the size of the document", "statement": "When the size is left to the library, the width of the extracted document is the longer one of the top and bottom edges between the detected corners, the height the longer one of the left and right edges, each rounded to pixels but at least 100; the size is reported to the caller.", "quantifier": "every RGBA image of at most 2^29 pixels, every mathematics library whose exp, atan2 and pow are accurate", "why_tests_cant": "The arithmetic is floating point with library functions; tests see a few photographs.", "anchors": ["src/extract_document.c:fcv_extract_document_auto"]}
{"id": "C112", "title": "Haskell: every element of a returned vector can be read", "statement": "Every vector returned by the Haskell bindings has the length of the documented image (width times height times bytes per pixel), and each of its elements lies in the memory allocated by the C library and has been written by it.", "quantifier": "every exported function that returns an image, every image of less than 4 GiB and all other arguments", "why_tests_cant": "The length is computed in Haskell, the memory allocated in C; reading beyond a heap block usually yields some value, so no test fails.", "anchors": ["bindings/flatcv-hs/src/FlatCV.hs:makeVector", "bindings/flatcv-hs/src/FlatCV.hs:withImageData"]}
{"id": "C113", "title": "Haskell: the vectors are the documented images", "statement": "The vectors and sizes returned by the Haskell functions are those of the documented image: grayscale, contrast stretching, Otsu, flips, rotations, crop, trim, border, drawing, histogram, resize and watershed; unless memory runs out, in which case an exception is raised.", "quantifier": "every image of the right format of less than 4 GiB (trim: 2 GiB), all arguments that the C functions accept, every pattern of allocation failures", "why_tests_cant": "All images and arguments; allocation failures do not happen in tests.", "anchors": ["bindings/flatcv-hs/src/FlatCV.hs", "bindings/flatcv-hs/src/FlatCV/Raw.chs"]}
{"id": "C114", "title": "Haskell: no memory is lost or released wrongly", "statement": "After a call of an exported function the only new block of C memory is the one that belongs to the returned vector, and nothing is released that is not live; also when an exception is raised.", "quantifier": "every exported function, all arguments, every pattern of allocation failures", "why_tests_cant": "Leaks on error paths and a wrong free are invisible to tests of results.", "anchors": ["bindings/flatcv-hs/src/FlatCV.hs:watershedSegmentation", "bindings/flatcv-hs/src/FlatCV.hs:calculatePerspectiveTransform"]}
{"id": "C115", "title": "Haskell: records have the C layout", "statement": "Corners, matrices and lists of points are stored in exactly the layout of the C structs and read back unchanged.", "quantifier": "all values, all previous contents of the memory", "why_tests_cant": "All double values.", "anchors": ["bindings/flatcv-hs/src/FlatCV.hs:Storable", "include/1_types.h:Corners"]}
{"id": "C116", "title": "Extraction shows the document straightened", "statement": "The extracted image has the wanted size, and each of its pixels shows the photograph at the position to which the library's perspective transformation from the upright rectangle to the detected corners maps the pixel (bilinear, transparent black outside). The call fails only if corner detection fails or if such a position does not fit 32 bits.", "quantifier": "every RGBA image of at most 2^29 pixels, every wanted size of at most 2^29 pixels, all detected corners", "why_tests_cant": "Whether the parts are composed correctly for every quadrilateral, including degenerate ones for which the identity is used, cannot be enumerated.", "anchors": ["src/extract_document.c:fcv_extract_document", "src/extract_document.c:fcv_extract_document_auto"]}
{"id": "C117", "title": "A written PNG contains the image", "statement": "Writing an image as PNG leaves a file from which every PNG reader gets back the size, the number of channels and every byte of the image: signature, chunk lengths and checksums, zlib header and checksum, deflate stream and row filters are all as the PNG and deflate specifications demand. Different images lead to different files.", "quantifier": "every image with 1 to 4 channels, rows of less than 2^24 bytes and at most 600 million bytes; every pixel content; no failing allocation", "why_tests_cant": "The compressor has a hash table, lazy matching, a fallback to stored blocks and a filter chosen for each row; which path is taken depends on the whole image.", "anchors": ["include/stb_image_write.h:stbi_write_png", "include/stb_image_write.h:stbi_zlib_compress", "include/stb_image_write.h:stbiw__encode_png_line"]}
{"id": "C118", "title": "Writing a PNG does not overflow", "statement": "Writing an image as PNG computes with numbers that fit their types, however large the image.", "quantifier": "every image size, every pixel content", "why_tests_cant": "The sum over a row overflows only for rows of at least 2^24 bytes with extreme contents; a test would need an image of 16 MiB in one row and a sanitizer.", "anchors": ["include/stb_image_write.h:stbi_write_png_to_mem"]}
{"id": "C119", "title": "A PNG writer without memory reports failure", "statement": "If an allocation fails while a PNG is written, the writer returns 0 and has released everything it allocated.", "quantifier": "every image, every pattern of failing allocations", "why_tests_cant": "Tests do not make single allocations fail.", "anchors": ["include/stb_image_write.h:stbi_write_png", "include/stb_image_write.h:stbi_write_png_to_mem", "include/stb_image_write.h:stbiw__sbgrowf"]}
{"id": "C120", "title": "The PNG file of the program shows the result of the pipeline", "statement": "When the program is called with a pipeline and a writable file that is not named .jpg or .jpeg, it returns 0, and a PNG reader finds in the file exactly the image that the documented operations, applied one after the other, make of the input image.", "quantifier": "every input image, every command line whose text is a valid pipeline, results of rows below 2^22 pixels and at most about 150 million pixels, no failing allocation", "why_tests_cant": "Parser, operations and encoder are composed; a test fixes all three.", "anchors": ["src/cli.c:main", "include/stb_image_write.h:stbi_write_png"]}
{"id": "C121", "title": "Decompression is safe for all bytes", "statement": "Decompressing the image data of a PNG file never accesses memory outside of its buffers, never uses memory that was not written, never overflows and always ends, whatever bytes the file contains; on success every byte of the result was written.", "quantifier": "all byte sequences, all first sizes of the output buffer, all patterns of failing reallocations, with and without zlib header", "why_tests_cant": "Malformed streams are infinitely many; fuzzing reaches only a few of the states of the Huffman decoder.", "anchors": ["include/stb_image.h:stbi_zlib_decode_malloc_guesssize_headerflag", "include/stb_image.h:stbi__parse_zlib", "include/stb_image.h:stbi__parse_huffman_block"]}
{"id": "C122", "title": "Every zlib stream is decompressed correctly", "statement": "Every zlib stream (stored blocks, fixed and dynamic Huffman codes, checksum) is decompressed to exactly the bytes it stands for, in particular the streams that FlatCV writes itself.", "quantifier": "all streams that are valid by RFC 1950 and RFC 1951, all first sizes of the buffer", "why_tests_cant": "Tests try a few streams; tables for fast decoding, the slow path for long codes, overlapping copies and growing of the buffer interact.", "anchors": ["include/stb_image.h:stbi__parse_zlib", "include/stb_image.h:stbi__zbuild_huffman", "include/stb_image.h:stbi__zhuffman_decode_slowpath", "include/stb_image.h:stbi__compute_huffman_codes"]}
{"id": "C123", "title": "Decompression succeeds only for zlib streams", "statement": "If decompression succeeds, the input is a zlib stream and the output is what it stands for.", "quantifier": "all byte sequences", "why_tests_cant": "Whether a corrupted stream is accepted depends on the stream.", "anchors": ["include/stb_image.h:stbi__parse_zlib", "include/stb_image.h:stbi__fill_bits"]}
{"id": "C124", "title": "Loading any PNG file is safe", "statement": "Loading a file that starts as a PNG file either reports failure or yields an image of the size that the file states, at most 16777216 in each direction, with four bytes for each pixel that were all written; it never accesses memory outside of its buffers, never uses memory that was not written, and always ends.", "quantifier": "all contents of the file after the signature, all patterns of failing allocations", "why_tests_cant": "Malformed files are infinitely many; chunks in any order, sizes at the edge of int and data that ends too early interact.", "anchors": ["include/stb_image.h:stbi_load", "include/stb_image.h:stbi__parse_png_file", "include/stb_image.h:stbi__create_png_image_raw", "include/stb_image.h:stbi__expand_png_palette", "include/stb_image.h:stbi__convert_format16"]}
{"id": "C125", "title": "Every valid PNG file is loaded with the right pixels", "statement": "A valid PNG file is loaded with its width and height, and every pixel has the red, green, blue and alpha that the PNG specification gives it: all colour types, all bit depths, all row filters, palettes, transparent colours, interlacing, data split into chunks in any way, unknown ancillary chunks.", "quantifier": "all valid files up to 16777216 in each direction and 200 million pixels, no failing allocation", "why_tests_cant": "The combinations of colour type, depth, filter, interlacing and transparency with all sizes are too many to test.", "anchors": ["include/stb_image.h:stbi_load", "include/stb_image.h:stbi__create_png_image", "include/stb_image.h:stbi__compute_transparency", "include/stb_image.h:stbi__paeth"]}
{"id": "C126", "title": "A written PNG can be loaded again", "statement": "Loading the file that the PNG writer wrote for an image gives back the size, the channels and all pixels; with four channels byte for byte.", "quantifier": "every image that the writer can write, all pixels", "why_tests_cant": "Encoder and decoder are composed; each has many paths that depend on the whole image.", "anchors": ["include/stb_image_write.h:stbi_write_png", "include/stb_image.h:stbi_load"]}
{"id": "C127", "title": "The program turns a valid PNG file into a valid PNG file with the right image", "statement": "Called with a valid PNG file, a pipeline and a writable name that is not a JPEG name, the program writes a valid PNG file whose image is what the documented operations, applied one after the other, make of the image in the input file.", "quantifier": "all valid input files up to 200 million pixels, every command line whose text is a valid pipeline, results of rows below 2^22 pixels and at most about 150 million pixels, no failing allocation", "why_tests_cant": "Decoder, parser, operations and encoder are composed; a test fixes all of them.", "anchors": ["src/cli.c:main", "include/stb_image.h:stbi_load", "include/stb_image_write.h:stbi_write_png"]}
{"id": "C128", "title": "Writing a JPEG file has no undefined behaviour", "statement": "Saving an RGBA image as JPEG reads and writes only memory that belongs to the image and the writer's arrays, uses no value that was never stored, and no operation on int overflows.", "quantifier": "all images with sides from 1 to 65535 and at most 2^29-1 pixels", "why_tests_cant": "A test sees the bytes one compiler produces; an overflowing shift of a signed number gives the expected bytes until an optimiser uses that it cannot happen.", "anchors": ["include/stb_image_write.h:stbi_write_jpg", "include/stb_image_write.h:stbi_write_jpg_core", "include/stb_image_write.h:stbiw__jpg_processDU", "include/stb_image_write.h:stbiw__jpg_writeBits"]}
{"id": "C129", "title": "A written JPEG file is valid and holds the image", "statement": "Saving an RGBA image as JPEG reports success and leaves a file that a baseline JPEG decoder accepts: all segments, Huffman codes and padding are right, the size is that of the image, there are three components with the colour differences at half the resolution, the steps are those of the standard's tables at quality 90, and each coefficient times its step differs from the cosine transform of the image by at most half a step and 1/16.", "quantifier": "all images with sides from 1 to 65535 and at most 2^29-1 pixels", "why_tests_cant": "A run of zeros longer than 15, a byte FF in the data or a large difference between blocks appears in few images; rounding errors of the floating-point transform depend on all pixels of a block.", "anchors": ["include/stb_image_write.h:stbi_write_jpg", "include/stb_image_write.h:stbi_write_jpg_core", "include/stb_image_write.h:stbiw__jpg_processDU", "include/stb_image_write.h:stbiw__jpg_writeBits"]}
{"id": "C130", "title": "A written JPEG file stands for nearly the same image", "statement": "Decoding the file that was saved, with an exact inverse transform, gives in every block of 64 samples a root mean square difference from the samples of the image of at most 6.77 levels of 255 for luminance and 9.16 for the two colour differences.", "quantifier": "all images with sides from 1 to 65535 and at most 2^29-1 pixels", "why_tests_cant": "A test compares some images; a bound needs the worst case over all pixels of a block.", "anchors": ["include/stb_image_write.h:stbi_write_jpg", "include/stb_image_write.h:stbi_write_jpg_core", "include/stb_image_write.h:stbiw__jpg_processDU", "include/stb_image_write.h:stbiw__jpg_writeBits"]}
{"id": "C131", "title": "A JPEG file that was written has the size of the image", "statement": "Whenever saving an RGBA image as JPEG reports success, a JPEG decoder finds the width and height of the image in the file.", "quantifier": "all images", "why_tests_cant": "Images with a side of more than 65535 pixels are not part of test suites.", "anchors": ["include/stb_image_write.h:stbi_write_jpg", "include/stb_image_write.h:stbi_write_jpg_core", "include/stb_image_write.h:stbiw__jpg_processDU", "include/stb_image_write.h:stbiw__jpg_writeBits"]}
{"id": "C132", "title": "The program writes JPEG files with the right image", "statement": "Called with an image file, a pipeline and a writable name that ends in .jpg or .jpeg, the program returns 0 and the file it writes is a valid JPEG file of the size of the result of the documented operations, with samples close to those of the result as in C130.", "quantifier": "every command line whose text is a valid pipeline, results with sides up to 65535 and at most 2^29-1 pixels, no failing allocation", "why_tests_cant": "Parser, operations and encoder are composed; a test fixes all of them.", "anchors": ["src/cli.c:main", "include/stb_image_write.h:stbi_write_jpg", "include/stb_image_write.h:stbi_write_jpg_core", "include/stb_image_write.h:stbiw__jpg_processDU", "include/stb_image_write.h:stbiw__jpg_writeBits"]}
{"id": "C133", "title": "JPEG blocks are transformed back accurately", "statement": "When a JPEG file is loaded, each block of 64 coefficients (times their steps) is turned into samples without overflow; every sample is the one of the exact inverse cosine transform, limited to 0..255, up to 0.617 levels and a 5900th of the sum of the sizes of the coefficients; no memory outside of the block is touched.", "quantifier": "all blocks of coefficients of at most 2300 in size (files of 8 bit images have at most 1024 plus half a step), all positions and line lengths", "why_tests_cant": "The integer transform rounds 16 times per sample with constants of 12 bits; tests compare a few images with a reference decoder and cannot bound the error for all coefficients.", "anchors": ["include/stb_image.h:stbi__idct_block", "include/stb_image.h:STBI__IDCT_1D"]}
{"id": "C134", "title": "The transform of JPEG blocks never overflows", "statement": "Whatever coefficients a JPEG file contains, turning a block into samples does not overflow.", "quantifier": "all blocks of 16 bit coefficients", "why_tests_cant": "Only corrupt files contain such coefficients.", "anchors": ["include/stb_image.h:stbi__idct_block"]}
{"id": "C135", "title": "JPEG colours are converted accurately", "statement": "When a JPEG file is loaded, the three samples of each pixel are converted to red, green and blue that differ from the exact conversion of the JFIF specification, limited to 0..255, by at most 0.6 levels; alpha is 255; nothing but the line is written.", "quantifier": "all 16777216 triples of samples, all line lengths", "why_tests_cant": "Fixed point arithmetic with a mask; tests try a few colours.", "anchors": ["include/stb_image.h:stbi__YCbCr_to_RGB_row"]}
{"id": "C136", "title": "Reduced JPEG components are enlarged by interpolation", "statement": "When a JPEG file with reduced colour differences is loaded, each sample of a line is the linear interpolation of the nearest samples of the reduced component, up to one half.", "quantifier": "all line lengths and all samples; reduction by two of columns, of rows, or of both", "why_tests_cant": "Edges and lines of one sample are special cases that tests seldom look at.", "anchors": ["include/stb_image.h:stbi__resample_row_hv_2", "include/stb_image.h:stbi__resample_row_h_2", "include/stb_image.h:stbi__resample_row_v_2"]}
{"id": "C137", "title": "A JPEG file that was saved is loaded with the colours it stands for", "statement": "Loading a file that was saved as JPEG succeeds if there is memory, without undefined behaviour, and gives an image of the same size whose pixels are opaque; red, green and blue of every pixel are those that the file stands for by the standards (inverse transform of T.81, interpolation and colours of T.871, in exact arithmetic) up to 6.4, 5.5 and 7.4 levels of 255.", "quantifier": "all images with sides from 1 to 65535 and at most 2^29-1 pixels, all pixel values, whatever feof says and whatever is in memory", "why_tests_cant": "Writer and reader together: a test compares a few images with a tolerance; Huffman codes, edges that are no multiple of 16 and rounding matter for particular pixels only.", "anchors": ["include/stb_image.h:stbi_load", "include/stb_image.h:stbi__jpeg_load", "include/stb_image.h:stbi__decode_jpeg_image", "include/stb_image.h:stbi__parse_entropy_coded_data", "include/stb_image.h:load_jpeg_image", "include/stb_image_write.h:stbi_write_jpg"]}
{"id": "C138", "title": "Grey images stay grey in JPEG files", "statement": "A grey image that is saved as JPEG and loaded again is grey, and in each block of 8 by 8 pixels the root mean square difference from the original is at most 8.9 levels.", "quantifier": "all grey images with sides from 1 to 65535 and at most 2^29-1 pixels", "why_tests_cant": "A tinge in a single pixel of a single image would be a violation.", "anchors": ["include/stb_image.h:stbi_load", "include/stb_image.h:stbi__jpeg_load", "include/stb_image.h:stbi__decode_jpeg_image", "include/stb_image.h:stbi__parse_entropy_coded_data", "include/stb_image.h:load_jpeg_image", "include/stb_image_write.h:stbi_write_jpg"]}
{"id": "C139", "title": "An image of one grey survives JPEG unchanged", "statement": "An image whose pixels all have the same grey is exactly the same (with opaque pixels) after saving it as JPEG and loading it.", "quantifier": "all 256 greys, all sizes with sides from 1 to 65535 and at most 2^29-1 pixels", "why_tests_cant": "A test tries some greys and sizes; quantisation, integer transform and rounding have to cancel for all of them.", "anchors": ["include/stb_image.h:stbi_load", "include/stb_image.h:stbi__jpeg_load", "include/stb_image.h:stbi__decode_jpeg_image", "include/stb_image.h:stbi__parse_entropy_coded_data", "include/stb_image.h:load_jpeg_image", "include/stb_image_write.h:stbi_write_jpg"]}
{"id": "C140", "title": "An image of one colour survives JPEG nearly unchanged", "statement": "An image whose pixels all have the same colour is loaded, after saving it as JPEG, with red off by at most 4, green by at most 3 and blue by at most 5 levels in every pixel.", "quantifier": "all 16777216 colours, all sizes with sides from 1 to 65535 and at most 2^29-1 pixels", "why_tests_cant": "16 million colours times all sizes.", "anchors": ["include/stb_image.h:stbi_load", "include/stb_image.h:stbi__jpeg_load", "include/stb_image.h:stbi__decode_jpeg_image", "include/stb_image.h:stbi__parse_entropy_coded_data", "include/stb_image.h:load_jpeg_image", "include/stb_image_write.h:stbi_write_jpg"]}
{"id": "C141", "title": "The program can work on JPEG files that were saved", "statement": "Called with a JPEG file that was saved for an image, the program sees an opaque upright image of that size with the colours the file stands for (as in C137): whatever the pipeline makes of every such image, that is what it saves, and it returns 0.", "quantifier": "every image with sides from 1 to 65535 and fewer than 2^28 pixels, every command line whose text is a valid pipeline, under the condition that allocations succeed", "why_tests_cant": "Composition of writer, decoder, EXIF reader, parser and operations; a test follows a few command lines.", "anchors": ["src/cli.c:main", "include/stb_image.h:stbi_load", "src/exif.c:fcv_get_exif_orientation", "include/stb_image_write.h:stbi_write_jpg"]}
{"id": "C142", "title": "Damaged JPEG files cannot make the loader leave its buffers or hang", "statement": "Loading any file that is not PNG, and that the other decoders do not claim, either fails, or returns a complete image with sides from 1 to 65535; nothing outside the buffers is read or written and the loader always ends. Only three things can go wrong: signed overflow (large coefficients), pixels from memory that was never written (a file without scan), and a failed assertion (a Huffman table with 256 codes).", "quantifier": "every sequence of bytes that does not start like a PNG file and is not a progressive JPEG file; every pattern of failing allocations", "why_tests_cant": "The input is an arbitrary byte sequence; a fuzzer sees a vanishing part of them, and an out-of-bounds access depends on combinations of sizes, sampling factors, tables and the place where the file ends.", "anchors": ["include/stb_image.h:stbi_load", "include/stb_image.h:stbi__jpeg_load"]}
{"id": "C143", "title": "Damaged progressive JPEG files cannot make the loader leave its buffers or hang", "statement": "As for sequential files: loading any file that is not PNG, and that the other decoders do not claim, progressive JPEG files included, either fails, or returns a complete image with sides from 1 to 65535; nothing outside the buffers is read or written and the loader always ends. Only signed overflow, pixels from memory that was never written and a failed assertion (a Huffman table with 256 codes) can go wrong. The second happens for a progressive file that merely lacks its last two bytes: it is loaded with success although no pixel was computed.", "quantifier": "every sequence of bytes that does not start like a PNG file; every pattern of failing allocations", "why_tests_cant": "The input is an arbitrary byte sequence with any number of scans that each refine the coefficients left by the scans before; the faults depend on how scans are combined and on where the file ends.", "anchors": ["include/stb_image.h:stbi_load", "include/stb_image.h:stbi__jpeg_decode_block_prog_dc", "include/stb_image.h:stbi__jpeg_decode_block_prog_ac", "include/stb_image.h:stbi__jpeg_finish"]}
{"id": "C144", "title": "Scans of a progressive JPEG file restore the AC coefficients bit by bit", "statement": "Reading a scan of a band of AC coefficients of a valid progressive JPEG file gives the coefficients of T.81: a first scan gives all coefficients of the band without their low bits, each further scan adds exactly one bit to those that are not zero and finds those that become non-zero, also inside runs of blocks that have ended; no other coefficient changes. When the last scan (low bit 0) has been read, the coefficients are exactly those that were coded.", "quantifier": "every band from 1 to 63, every bit position, every image size without restart intervals, all coefficients of at most 15 bits, every Huffman code in the file and every valid sequence of codes", "why_tests_cant": "A refining scan interleaves new coefficients, correction bits of old ones and runs of zeros and of ended blocks; tests see a few encoders' habits, not all valid sequences.", "anchors": ["include/stb_image.h:stbi__jpeg_decode_block_prog_ac", "include/stb_image.h:stbi__parse_entropy_coded_data"]}
{"id": "C145", "title": "The pixels of a progressive JPEG file are those of its coefficients", "statement": "At the end of a progressive JPEG file, the samples of each component are the inverse transform of the restored coefficients times their quantisation steps, exactly as they would be for a baseline file with the same coefficients; every block of every component is computed.", "quantifier": "every number and size of components, every quantisation table and all coefficients whose products with the steps are at most 2300", "why_tests_cant": "The statement compares two decoders for all coefficient planes; tests can only compare chosen image pairs.", "anchors": ["include/stb_image.h:stbi__jpeg_finish", "include/stb_image.h:stbi__jpeg_dequantize"]}
{"id": "C146", "title": "Scans of a progressive JPEG file restore the DC coefficients", "statement": "Reading a scan of DC coefficients of a valid progressive JPEG file, interleaved or of one component, gives the DC coefficient of every block without its low bits, with differences predicted per component in the order of T.81; a first scan sets the AC coefficients to zero; each further scan adds exactly one bit, also for negative values; no other coefficient changes.", "quantifier": "every number of components, sampling factors, image size without restart intervals, bit position, Huffman codes and coefficients of at most 15 bits", "why_tests_cant": "The order of blocks depends on sampling factors and on whether the scan is interleaved; the prediction runs through all blocks of the image.", "anchors": ["include/stb_image.h:stbi__jpeg_decode_block_prog_dc", "include/stb_image.h:stbi__parse_entropy_coded_data"]}
{"id": "C147", "title": "PGM and PPM files with levels 0 to 255 are loaded exactly", "statement": "Loading a valid binary PGM or PPM file whose samples go up to 255 gives an opaque image of the size in the header with exactly the samples of the file (grey as three equal channels), whatever white space and comments separate the parts of the header and with leading zeros or without.", "quantifier": "all valid P5 and P6 files with largest sample 255, sides up to 16777216 and fewer than 2^29 pixels; all headers, all samples; wherever the 128-byte read buffer ends", "why_tests_cant": "The header is free-form text read through a buffer that is refilled every 128 bytes; a test has one header per file.", "anchors": ["include/stb_image.h:stbi_load", "include/stb_image.h:stbi__pnm_load", "include/stb_image.h:stbi__pnm_info", "include/stb_image.h:stbi__pnm_skip_whitespace", "include/stb_image.h:stbi__pnm_getinteger"]}
{"id": "C148", "title": "The levels of a PGM or PPM file are scaled from its own range", "statement": "Loading a valid PGM or PPM file with samples from 0 to M gives for each sample v the level nearest to 255 v / M.", "quantifier": "all valid P5 and P6 files, M from 1 to 65535", "why_tests_cant": "Tests use M = 255; the statement is about all ranges and both sample sizes.", "anchors": ["include/stb_image.h:stbi_load", "include/stb_image.h:stbi__pnm_load", "include/stb_image.h:stbi__pnm_info", "include/stb_image.h:stbi__convert_16_to_8"]}
{"id": "C149", "title": "Damaged PGM and PPM files cannot make the loader leave its buffers or hang", "statement": "Loading any file that starts with P5 or P6 fails or returns a complete image with sides from 1 to 16777216; nothing outside the buffers is read or written, no number overflows, and the loader always ends.", "quantifier": "every sequence of bytes after the identifier, every pattern of failing allocations", "why_tests_cant": "The input is an arbitrary byte sequence; numbers near the limits of int, comments without end and sizes whose products wrap around are needed to see a fault.", "anchors": ["include/stb_image.h:stbi_load", "include/stb_image.h:stbi__pnm_load", "include/stb_image.h:stbi__pnm_info", "include/stb_image.h:stbi__convert_format16", "include/stb_image.h:stbi__pnm_skip_whitespace"]}
{"id": "C150", "title": "The program works on PGM and PPM files", "statement": "Called with a valid PGM or PPM file with samples up to 255 and a pipeline, the program works on exactly the image in the file and writes the result as a PNG file that decodes to exactly the result of the pipeline; it returns 0.", "quantifier": "every valid P5 or P6 file with largest sample 255 and fewer than 2^28 pixels, every command line whose text is a valid pipeline, under the condition that allocations succeed", "why_tests_cant": "Composition of decoder, parser, operations and writer; a test follows a few command lines.", "anchors": ["src/cli.c:main", "include/stb_image.h:stbi_load", "include/stb_image.h:stbi__pnm_load", "include/stb_image_write.h:stbi_write_png"]}
{"id": "C151", "title": "Files that are not images are refused", "statement": "A file that has the signature of none of the supported formats is refused as an unknown image type without calling a decoder; in particular every text file that does not start like an image format, and the empty file. PNG, JPEG, PGM and PPM files reach their own decoder.", "quantifier": "every non-empty file without one of the nine signatures, not starting with byte FF, whose second byte is greater than 1 (so all other texts); every contents after the signature", "why_tests_cant": "The choice depends on nine tests that run one after the other on the same buffer and change it when the file is short; tests try a few files.", "anchors": ["include/stb_image.h:stbi__load_main", "include/stb_image.h:stbi__rewind", "include/stb_image.h:stbi__tga_test"]}
{"id": "C152", "title": "Called with a file that is not an image, the program fails cleanly", "statement": "If the input file cannot be decoded, in particular if it is empty or a text, the program returns 1, writes no output file, and has released everything it allocated.", "quantifier": "every command line with at least one pipeline argument, valid or not (without malformed extract_document_to, see C65); every input file the decoder refuses; allocations succeed", "why_tests_cant": "A test tries one bad file with one pipeline.", "anchors": ["src/cli.c:main", "include/stb_image.h:stbi_load", "include/stb_image.h:stbi__load_main"]}
{"id": "C153", "title": "Loading any file ends in a refusal or a whole image, apart from a known list of faults", "statement": "Whatever bytes a file has, loading it ends: it is refused, or gives an image all of whose bytes have been written. Reads outside the buffers, null pointers, divisions by zero and endless loops never occur. Other faults only occur as listed: use of memory that was never written (JPEG, and PNG with a palette), signed overflow and a failed assertion (JPEG), writes outside the buffers (PNG and PGM with 16 bits and at least 2^29 grey pixels).", "quantifier": "every file that is not taken for BMP, GIF, PSD, PIC, HDR or TGA and does not start with 127 bytes FF, every pattern of failing allocations", "why_tests_cant": "Arbitrary bytes and arbitrary patterns of failing allocations; a fuzzer only tries some.", "anchors": ["include/stb_image.h:stbi_load", "include/stb_image.h:stbi__load_main", "include/stb_image.h:stbi__png_load", "include/stb_image.h:stbi__jpeg_load", "include/stb_image.h:stbi__pnm_load"]}
{"id": "C154", "title": "The program converts PNG, PGM and PPM files to JPEG", "statement": "Called with a valid PNG file, or a valid PGM or PPM file with samples up to 255, a pipeline and a writable name that ends in .jpg or .jpeg, the program returns 0 and the file it writes is a valid JPEG file of the size of the result of the pipeline on the image in the input file, with samples close to those of the result as in C130.", "quantifier": "every valid PNG file up to 200 million pixels and every valid P5 or P6 file with largest sample 255 and fewer than 2^28 pixels, every valid pipeline, results with sides up to 65535 and at most 2^29 - 1 pixels; allocations succeed", "why_tests_cant": "Composition of the choice of the decoder, the decoder, the parser, the operations and the encoder; a test follows a few files.", "anchors": ["src/cli.c:main", "include/stb_image.h:stbi_load", "include/stb_image_write.h:stbi_write_jpg"]}
