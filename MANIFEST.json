{
 "claims": [
  {
   "property": "C01",
   "status": "proved",
   "theorems": [
    "FlatCV.Props.flip_x_correct",
    "FlatCV.Props.flip_x_pixel"
   ],
   "note": ""
  },
  {
   "property": "C02",
   "status": "proved",
   "theorems": [
    "FlatCV.Props.flip_y_correct"
   ],
   "note": ""
  },
  {
   "property": "C03",
   "status": "proved",
   "theorems": [
    "FlatCV.Props.transpose_correct",
    "FlatCV.Props.transverse_correct"
   ],
   "note": ""
  },
  {
   "property": "C04",
   "status": "proved",
   "theorems": [
    "FlatCV.Props.rotate_90_correct",
    "FlatCV.Props.rotate_180_correct",
    "FlatCV.Props.rotate_270_correct"
   ],
   "note": ""
  },
  {
   "property": "C05",
   "status": "proved",
   "theorems": [
    "FlatCV.Props.flip_x_flip_x",
    "FlatCV.Props.flip_y_flip_y",
    "FlatCV.Props.rotate_180_rotate_180",
    "FlatCV.Props.transpose_transpose",
    "FlatCV.Props.transverse_transverse",
    "FlatCV.Props.rotate_90_rotate_270",
    "FlatCV.Props.rotate_270_rotate_90",
    "FlatCV.Props.rotate_90_twice",
    "FlatCV.Props.rotate_90_four_times",
    "FlatCV.Props.flip_x_flip_y_eq_rotate_180",
    "FlatCV.Props.transpose_flip_x_eq_rotate_90",
    "FlatCV.Props.transpose_rotate_180_eq_transverse"
   ],
   "note": ""
  },
  {
   "property": "C06",
   "status": "proved",
   "theorems": [
    "FlatCV.Props.crop_correct"
   ],
   "note": ""
  },
  {
   "property": "C07",
   "status": "proved",
   "theorems": [
    "FlatCV.Props.crop_rejects"
   ],
   "note": ""
  },
  {
   "property": "C08",
   "status": "proved",
   "theorems": [
    "FlatCV.Props.crop_full",
    "FlatCV.Props.crop_crop"
   ],
   "note": ""
  },
  {
   "property": "C12",
   "status": "proved",
   "theorems": [
    "FlatCV.Props.rgba_to_grayscale_correct",
    "FlatCV.Props.luma_value",
    "FlatCV.Props.luma_gray",
    "FlatCV.Props.luma_mono",
    "FlatCV.Props.luma_between"
   ],
   "note": ""
  },
  {
   "property": "C13",
   "status": "proved",
   "theorems": [
    "FlatCV.Props.grayscale_correct",
    "FlatCV.Props.grayscale_idempotent"
   ],
   "note": "For images of at most 2^30 pixels, the range of the 32-bit index the property names."
  },
  {
   "property": "C14",
   "status": "partial",
   "theorems": [
    "FlatCV.Props.grayscale_covers_partial",
    "FlatCV.Props.grayscale_uninitialised",
    "FlatCV.Props.not_grayscaleCoversEveryPixel"
   ],
   "note": "False of the code beyond 2^30 pixels: negation proved."
  },
  {
   "property": "C15",
   "status": "proved",
   "theorems": [
    "FlatCV.Props.single_to_multichannel_correct",
    "FlatCV.Props.grayscale_of_multichannel"
   ],
   "note": ""
  },
  {
   "property": "C16",
   "status": "proved",
   "theorems": [
    "FlatCV.Props.grayscale_stretch_correct",
    "FlatCV.Props.stretch_mono",
    "FlatCV.Props.stretch_ends",
    "FlatCV.Props.stretch_flat",
    "FlatCV.Props.stretch_outliers"
   ],
   "note": "For images of at most 2^30 pixels (beyond, the 32-bit counters wrap)."
  },
  {
   "property": "C17",
   "status": "proved",
   "theorems": [
    "FlatCV.Props.global_threshold_correct"
   ],
   "note": ""
  },
  {
   "property": "C33",
   "status": "proved",
   "theorems": [
    "FlatCV.Props.parse_hex_color_valid",
    "FlatCV.Props.parse_hex_color_invalid"
   ],
   "note": ""
  },
  {
   "property": "C34",
   "status": "proved",
   "theorems": [
    "FlatCV.Props.convert_to_binary_correct"
   ],
   "note": ""
  },
  {
   "property": "C35",
   "status": "proved",
   "theorems": [
    "FlatCV.Props.dilation_correct",
    "FlatCV.Props.erosion_correct",
    "FlatCV.Props.binImg_binary"
   ],
   "note": "In the int32 range MorphOK; outside it see C38."
  },
  {
   "property": "C36",
   "status": "proved",
   "theorems": [
    "FlatCV.Props.closing_is_closing",
    "FlatCV.Props.closing_increasing",
    "FlatCV.Props.closing_yields"
   ],
   "note": "In the int32 range MorphOK; outside it see C38."
  },
  {
   "property": "C37",
   "status": "proved",
   "theorems": [
    "FlatCV.Props.opening_is_opening",
    "FlatCV.Props.opening_increasing",
    "FlatCV.Props.opening_yields"
   ],
   "note": "In the int32 range MorphOK; outside it see C38."
  },
  {
   "property": "C38",
   "status": "partial",
   "theorems": [
    "FlatCV.Props.morphology_radius_partial",
    "FlatCV.Props.not_morphologyAcceptsAnyRadius",
    "FlatCV.Props.erosion_large_radius_overflows",
    "FlatCV.Props.dilation_large_radius_overflows"
   ],
   "note": "False of the code from radius 32768 on: negation proved."
  },
  {
   "property": "C39",
   "status": "proved",
   "theorems": [
    "FlatCV.Props.trim_correct",
    "FlatCV.Props.trimBox_unique",
    "FlatCV.Props.trim_drops_dot"
   ],
   "note": "Images of at most 2^32 bytes."
  },
  {
   "property": "C40",
   "status": "partial",
   "theorems": [
    "FlatCV.Props.trim_rows_partial",
    "FlatCV.Props.trim_idempotent_partial",
    "FlatCV.Props.not_trimIdempotent"
   ],
   "note": "False of the code: negation proved. Rows and the case that removed no row are proved."
  },
  {
   "property": "C41",
   "status": "proved",
   "theorems": [
    "FlatCV.Props.trim_tolerance",
    "FlatCV.Props.trim_tolerance_int",
    "FlatCV.Props.trim_threshold_rejects",
    "FlatCV.Props.trim_threshold_clamps",
    "FlatCV.Props.trim_threshold_small",
    "FlatCV.Props.trim_threshold_correct"
   ],
   "note": ""
  },
  {
   "property": "C71",
   "status": "partial",
   "theorems": [
    "FlatCV.Props.trim_correct",
    "FlatCV.Props.not_trimAnySize"
   ],
   "note": "False of the code beyond 2^32 bytes: negation proved."
  },
  {
   "property": "C28",
   "status": "partial",
   "theorems": [
    "FlatCV.Props.draw_safe_partial",
    "FlatCV.Props.draw_rejects",
    "FlatCV.Props.not_drawSafe",
    "FlatCV.Props.draw_large_radius_faults"
   ],
   "note": "False of the code for centres outside int32 and for radii from 536912000 to the enforced limit 1073741823: negations proved. Proved for radius up to 5e8 and centres up to 1e9."
  },
  {
   "property": "C29",
   "status": "proved",
   "theorems": [
    "FlatCV.Props.circle_only_near",
    "FlatCV.Props.disk_only_near"
   ],
   "note": ""
  },
  {
   "property": "C30",
   "status": "proved",
   "theorems": [
    "FlatCV.Props.disk_shape",
    "FlatCV.Props.circle_shape"
   ],
   "note": ""
  },
  {
   "property": "C31",
   "status": "proved",
   "theorems": [
    "FlatCV.Props.add_border_correct",
    "FlatCV.Props.crop_bordered"
   ],
   "note": ""
  },
  {
   "property": "C32",
   "status": "partial",
   "theorems": [
    "FlatCV.Props.add_border_initialised_partial",
    "FlatCV.Props.not_borderInitialised",
    "FlatCV.Props.add_border_large_uninit"
   ],
   "note": "False of the code for 2 (or more than 4) channels and for outputs above 2^32 bytes: negations proved."
  },
  {
   "property": "C70",
   "status": "proved",
   "theorems": [
    "FlatCV.Props.draw_luma_correct"
   ],
   "note": ""
  },
  {
   "property": "C42",
   "status": "proved",
   "theorems": [
    "FlatCV.Props.histogram_correct",
    "FlatCV.Props.histogram_full_column",
    "FlatCV.Props.histogram_depends_on_counts",
    "FlatCV.Props.histogram_rejects"
   ],
   "note": ""
  },
  {
   "property": "C72",
   "status": "partial",
   "theorems": [
    "FlatCV.Props.histogram_wrapped",
    "FlatCV.Props.histogram_correct",
    "FlatCV.Props.not_histogramAnySize",
    "FlatCV.Props.histogram_large_is_empty"
   ],
   "note": "False of the code: a 21474837-pixel black gray image yields an empty picture (negation proved). histogram_wrapped gives the exact behaviour for all sizes."
  },
  {
   "property": "C53",
   "status": "proved",
   "theorems": [
    "FlatCV.Props.exif_roundtrip"
   ],
   "note": "Counts and directory offsets below 2^31 (see C73), no fill bytes (see C74)."
  },
  {
   "property": "C54",
   "status": "partial",
   "theorems": [
    "FlatCV.Props.exif_terminates_partial",
    "FlatCV.Props.exif_terminates_eoi",
    "FlatCV.Props.exif_diverges",
    "FlatCV.Props.not_exifTerminates"
   ],
   "note": "False of the code: every file of plain segments cut off right after a marker loops for ever (proved). Terminates on all files not ending in such a marker."
  },
  {
   "property": "C55",
   "status": "proved",
   "theorems": [
    "FlatCV.Props.exif_unreadable",
    "FlatCV.Props.exif_not_jpeg",
    "FlatCV.Props.exif_absent"
   ],
   "note": ""
  },
  {
   "property": "C73",
   "status": "partial",
   "theorems": [
    "FlatCV.Props.exif_outcomes_partial",
    "FlatCV.Props.not_exifNoUB"
   ],
   "note": "False of the code: byte << 24 overflows int. Proved that this and divergence are the only ways to go wrong."
  },
  {
   "property": "C74",
   "status": "partial",
   "theorems": [
    "FlatCV.Props.not_exifFillBytes"
   ],
   "note": "False of the code: negation proved."
  },
  {
   "property": "C43",
   "status": "partial",
   "theorems": [
    "FlatCV.Props.watershed_terminates_partial",
    "FlatCV.Props.watershed_diverges",
    "FlatCV.Props.not_watershedTerminates"
   ],
   "note": "False of the code: from 2^32 pixels on the label initialisation never ends (proved for all such images). Terminates, with any number of markers, below 2^31 pixels."
  },
  {
   "property": "C44",
   "status": "proved",
   "theorems": [
    "FlatCV.Props.watershed_total",
    "FlatCV.Props.regionByte_not_black"
   ],
   "note": ""
  },
  {
   "property": "C45",
   "status": "proved",
   "theorems": [
    "FlatCV.Props.watershed_connected",
    "FlatCV.Props.watershed_correct"
   ],
   "note": ""
  },
  {
   "property": "C46",
   "status": "proved",
   "theorems": [
    "FlatCV.Props.watershed_floods_in_order"
   ],
   "note": ""
  },
  {
   "property": "C47",
   "status": "partial",
   "theorems": [
    "FlatCV.Props.watershed_rejects_outside_partial",
    "FlatCV.Props.watershed_rejects",
    "FlatCV.Props.not_watershedRejectsOutside"
   ],
   "note": "False of the code: a finite coordinate outside the int32_t range is converted before it is checked (undefined behaviour). Proved for all other marker lists."
  },
  {
   "property": "C75",
   "status": "proved",
   "theorems": [
    "FlatCV.Props.watershed_boundary_only"
   ],
   "note": ""
  },
  {
   "property": "C76",
   "status": "partial",
   "theorems": [
    "FlatCV.Props.not_watershedSeparates"
   ],
   "note": "False of the code: negation proved (four flat pixels, markers at both ends)."
  },
  {
   "property": "C77",
   "status": "partial",
   "theorems": [
    "FlatCV.Props.watershed_correct",
    "FlatCV.Props.watershed_large_uninit",
    "FlatCV.Props.not_watershedAnySize"
   ],
   "note": "False of the code: between 2^30 and 2^31 pixels the result has uninitialised bytes. Correct up to 2^30 pixels."
  },
  {
   "property": "C48",
   "status": "proved",
   "theorems": [
    "FlatCV.Props.corner_peaks_apart",
    "FlatCV.Props.corner_peaks_view"
   ],
   "note": ""
  },
  {
   "property": "C49",
   "status": "proved",
   "theorems": [
    "FlatCV.Props.corner_peaks_qualified",
    "FlatCV.Props.corner_peaks_correct"
   ],
   "note": ""
  },
  {
   "property": "C50",
   "status": "proved",
   "theorems": [
    "FlatCV.Props.corner_peaks_fair",
    "FlatCV.Props.corner_peaks_correct"
   ],
   "note": ""
  },
  {
   "property": "C78",
   "status": "partial",
   "theorems": [
    "FlatCV.Props.corner_peaks_correct",
    "FlatCV.Props.corner_peaks_any_size_false"
   ],
   "note": "False of the code: beyond 2^31 pixels the 32-bit index wraps and points with response zero are returned. Correct up to 2^31 pixels."
  },
  {
   "property": "C18",
   "status": "proved",
   "theorems": [
    "FlatCV.Props.otsu_two_level",
    "FlatCV.Props.otsu_correct"
   ],
   "note": ""
  },
  {
   "property": "C19",
   "status": "partial",
   "theorems": [
    "FlatCV.Props.otsu_first_maximum_partial",
    "FlatCV.Props.otsu_first_maximum_pow2_partial",
    "FlatCV.Props.not_otsuCutsAtFirstMaximum"
   ],
   "note": "False of the code: rounding can leave the cumulative weight different from 1 after the last pixel, and the bogus variance of that level can win. Proved with 'weight neither 0 nor 1' instead of 'both classes non-empty', and in full for 2^k pixels, k <= 24."
  },
  {
   "property": "C20",
   "status": "partial",
   "theorems": [
    "FlatCV.Props.otsu_ramp_partial",
    "FlatCV.Props.double_threshold_correct",
    "FlatCV.Props.ramp_mono",
    "FlatCV.Props.not_otsuRampIsCentred",
    "FlatCV.Props.double_threshold_equal_divides_by_zero"
   ],
   "note": "False of the code for levels below 16 or above 239: the bounds wrap around. Proved for levels 16..239; the exact (wrong) result is given for the others; never a division by zero."
  },
  {
   "property": "C79",
   "status": "partial",
   "theorems": [
    "FlatCV.Props.otsu_keeps_both_partial",
    "FlatCV.Props.not_otsuKeepsBothColours"
   ],
   "note": "False of the code: an almost uniformly bright image comes out all black. Proved for 2^k pixels, k <= 24, when some split has positive computed variance."
  },
  {
   "property": "C80",
   "status": "partial",
   "theorems": [
    "FlatCV.Props.otsu_any_size_partial",
    "FlatCV.Props.otsu_large_hangs",
    "FlatCV.Props.not_otsuAnySize"
   ],
   "note": "False of the code: from 2^32 pixels on the counting loop never ends."
  },
  {
   "property": "C56",
   "status": "proved",
   "theorems": [
    "FlatCV.Props.orient_correct",
    "FlatCV.Props.orient_outcome",
    "FlatCV.Props.upright_uprightImg",
    "FlatCV.Props.Upright.unique"
   ],
   "note": "Assuming the transform finds memory; otherwise see C81. The test of the file extension is not modelled."
  },
  {
   "property": "C81",
   "status": "partial",
   "theorems": [
    "FlatCV.Props.orient_outcome",
    "FlatCV.Props.not_orientConsistent"
   ],
   "note": "False of the code: the dimensions are swapped even if the transform returned NULL. orient_outcome gives the exact outcome in all cases."
  },
  {
   "property": "C69",
   "status": "proved",
   "theorems": [
    "FlatCV.Props.count_colors_correct"
   ],
   "note": ""
  },
  {
   "property": "C82",
   "status": "partial",
   "theorems": [
    "FlatCV.Props.count_colors_correct",
    "FlatCV.Props.count_colors_overflow"
   ],
   "note": "False of the code: width*height*4 overflows int from 2^29 pixels on (witness 32768x16384). Correct below."
  },
  {
   "property": "C21",
   "status": "proved",
   "theorems": [
    "FlatCV.Props.blur_radius_zero",
    "FlatCV.Props.blur_bad_radius",
    "FlatCV.Props.blur_rejects"
   ],
   "note": ""
  },
  {
   "property": "C22",
   "status": "partial",
   "theorems": [
    "FlatCV.Props.blur_writes_all_partial",
    "FlatCV.Props.usual_radius",
    "FlatCV.Props.blur_tiny_radius_faults",
    "FlatCV.Props.not_blurWritesAll"
   ],
   "note": "False of the code for radii below about 2^-73: the variance underflows to zero and NaN is converted to uint8_t. The two theorems cover all accepted radii: safe when the variance does not vanish (all radii from 2^-70 on), undefined when it does. exp is assumed to be exact at 0 and within 2^-30 on [-5,0]."
  },
  {
   "property": "C23",
   "status": "proved",
   "theorems": [
    "FlatCV.Props.blur_no_overshoot",
    "FlatCV.Props.averaged_bounds",
    "FlatCV.Props.winMean_bounds"
   ],
   "note": "For every radius and heap: whenever an image is returned. exp as in C22; images below 2^32 bytes."
  },
  {
   "property": "C83",
   "status": "partial",
   "theorems": [
    "FlatCV.Props.blur_gaussian_partial",
    "FlatCV.Props.blur_two",
    "FlatCV.Props.not_blurGaussian"
   ],
   "note": "Holds for integer radii; false for fractional ones: the kernel is then shifted by one to one side (witness radius 1.5)."
  },
  {
   "property": "C84",
   "status": "partial",
   "theorems": [
    "FlatCV.Props.blur_mirrors_partial",
    "FlatCV.Props.not_blurMirrors"
   ],
   "note": "Holds for integer radii; false for fractional ones (witness radius 1.5 on a white and a black pixel)."
  },
  {
   "property": "C85",
   "status": "partial",
   "theorems": [
    "FlatCV.Props.blur_uniform_partial",
    "FlatCV.Props.not_blurKeepsUniform",
    "FlatCV.Props.blur_half_runs"
   ],
   "note": "False of the code: radius 0.5 turns grey 109 into 108. The loss is at most 2 levels, never a gain."
  },
  {
   "property": "C24",
   "status": "proved",
   "theorems": [
    "FlatCV.Props.resize_rejects",
    "FlatCV.Props.resize_empty",
    "FlatCV.Props.resize_too_large",
    "FlatCV.Props.resize_dims",
    "FlatCV.Props.resize_safe"
   ],
   "note": "Rejections and the size of any non-NULL result hold for all arguments; resize_safe gives the successful call for images and outputs below 2^32 bytes."
  },
  {
   "property": "C25",
   "status": "proved",
   "theorems": [
    "FlatCV.Props.resize_identity"
   ],
   "note": "For images below 2^32 bytes."
  },
  {
   "property": "C26",
   "status": "partial",
   "theorems": [
    "FlatCV.Props.resize_safe",
    "FlatCV.Props.resize_between_partial",
    "FlatCV.Props.resize_uniform_partial",
    "FlatCV.Props.not_resizeBetween"
   ],
   "note": "No out-of-bounds access for any factors. Bounds and constant images proved when both factors are at least 1 or both below 2; false otherwise (white becomes black at the border)."
  },
  {
   "property": "C27",
   "status": "partial",
   "theorems": [
    "FlatCV.Props.resize_samples_partial",
    "FlatCV.Props.resize_first_column_black",
    "FlatCV.Props.resize_first_row_black",
    "FlatCV.Props.not_resizeSamples"
   ],
   "note": "False: shrinking one axis while enlarging the other by 2 or more leaves the first column (row) black. Proved for all other factor pairs."
  },
  {
   "property": "C86",
   "status": "partial",
   "theorems": [
    "FlatCV.Props.resize_enlarge",
    "FlatCV.Props.resize_shrink_partial",
    "FlatCV.Props.not_resizeAverages",
    "FlatCV.Props.halve_whiteBlack"
   ],
   "note": "Enlarging proved. When shrinking, the averaged rectangle is the footprint moved by half a source pixel to the left and top, so the property is false."
  },
  {
   "property": "C87",
   "status": "partial",
   "theorems": [
    "FlatCV.Props.resize_mirrors_partial",
    "FlatCV.Props.not_resizeMirrors",
    "FlatCV.Props.halve_whiteBlack",
    "FlatCV.Props.halve_blackWhite"
   ],
   "note": "Proved for enlarging; false for shrinking (half-pixel shift)."
  },
  {
   "property": "C88",
   "status": "partial",
   "theorems": [
    "FlatCV.Props.resize_initialises_partial",
    "FlatCV.Props.resize_leaves_uninitialised",
    "FlatCV.Props.not_resizeInitialises"
   ],
   "note": "Proved below 2^32 output bytes; beyond that 32-bit indices never reach the rest."
  },
  {
   "property": "C51",
   "status": "partial",
   "theorems": [
    "FlatCV.Props.sobel_normalised_partial",
    "FlatCV.Props.sobel_uniform",
    "FlatCV.Props.sobel_wide_wrong",
    "FlatCV.Props.not_sobelNormalised"
   ],
   "note": "Proved for sides below 2^31 (and magnitude buffers that fit memory); false for a side of 2^31, where the neighbour of the last column is taken from the first."
  },
  {
   "property": "C52",
   "status": "partial",
   "theorems": [
    "FlatCV.Props.sobel_safe_partial",
    "FlatCV.Props.sobel_rgb_reads_past",
    "FlatCV.Props.not_sobelInBounds"
   ],
   "note": "Proved for 1 and 4 channels; false for 3 channels with two or more pixels (RGB is read as RGBA past its end)."
  },
  {
   "property": "C89",
   "status": "partial",
   "theorems": [
    "FlatCV.Props.sobel_scaled_partial"
   ],
   "note": "Proved for sides below 2^31, error below 0.0001 plus the cut to an integer; false beyond (see C51)."
  },
  {
   "property": "C90",
   "status": "proved",
   "theorems": [
    "FlatCV.Props.bw_two_level",
    "FlatCV.Props.bw_smooth_gray",
    "FlatCV.Props.bw_run"
   ],
   "note": "For images of at most 10^8 pixels (larger ones give NULL, see C91)."
  },
  {
   "property": "C91",
   "status": "partial",
   "theorems": [
    "FlatCV.Props.bw_any_size_partial",
    "FlatCV.Props.bw_large_refused",
    "FlatCV.Props.not_bwAnySize"
   ],
   "note": "Proved up to 10^8 pixels; false beyond: the radius exceeds 1000 and the result is always NULL."
  },
  {
   "property": "C92",
   "status": "partial",
   "theorems": [
    "FlatCV.Props.bw_black_page_partial",
    "FlatCV.Props.bw_page",
    "FlatCV.Props.not_bwBlankStaysBlank"
   ],
   "note": "False: a 100x1 page of gray 246 gets two black pixels, for every admissible exp. Proved for a black page."
  },
  {
   "property": "C68",
   "status": "partial",
   "theorems": [
    "FlatCV.Props.foerstner_safe_partial",
    "FlatCV.Props.foerstner_small_images_fault",
    "FlatCV.Props.foerstner_not_safe"
   ],
   "note": "Proved below 2^31 pixels for all sizes the window fits; for every other size (with a mild bound) the call is proved to end in undefined behaviour, e.g. 1x1 with sigma 2."
  },
  {
   "property": "C93",
   "status": "partial",
   "theorems": [
    "FlatCV.Props.foerstner_measures_partial"
   ],
   "note": "Proved below 2^31 pixels, window half-width at most 4999."
  },
  {
   "property": "C94",
   "status": "partial",
   "theorems": [
    "FlatCV.Props.stripes_no_corner_partial",
    "FlatCV.Props.ramp_is_not_flat"
   ],
   "note": "False: a 3x3 ramp 100-7x-5y gets response 255. Proved for images that vary along one axis only."
  },
  {
   "property": "C95",
   "status": "partial",
   "theorems": [
    "FlatCV.Props.strongest_at_least_254_partial",
    "FlatCV.Props.strongest_not_255"
   ],
   "note": "False: a 4x3 image has maximum 254 in the first channel. Proved: at least 254."
  },
  {
   "property": "C57",
   "status": "proved",
   "theorems": [
    "FlatCV.Props.solver_solves"
   ],
   "note": "Over the rationals (exact arithmetic), as the property says."
  },
  {
   "property": "C58",
   "status": "partial",
   "theorems": [
    "FlatCV.Props.perspective_maps_corners_partial",
    "FlatCV.Props.perspective_collinear_not_mapped",
    "FlatCV.Props.perspective_nonfinite"
   ],
   "note": "Proved for corners in general position (exact arithmetic) and for non-finite corners; false when three source corners are on a line."
  },
  {
   "property": "C59",
   "status": "partial",
   "theorems": [
    "FlatCV.Props.apply_warps_partial",
    "FlatCV.Props.apply_identity_copies_partial",
    "FlatCV.Props.apply_large_overflow",
    "FlatCV.Props.apply_nan_undefined",
    "FlatCV.Props.apply_rejects",
    "FlatCV.Props.apply_needs_fit"
   ],
   "note": "Proved for source and output of at most 2^29 pixels; false beyond (int32 index overflow). The condition on the coordinates is necessary for every matrix (apply_needs_fit); NaN is converted to int."
  },
  {
   "property": "C96",
   "status": "proved",
   "theorems": [
    "FlatCV.Props.perspective_unique",
    "FlatCV.Props.perspective_same_corners",
    "FlatCV.Props.solver_rejects_singular"
   ],
   "note": "Exact arithmetic."
  },
  {
   "property": "C97",
   "status": "partial",
   "theorems": [
    "FlatCV.Props.perspective_total_partial",
    "FlatCV.Props.perspective_null_deref"
   ],
   "note": "Proved for all doubles when memory is available; false when malloc fails (NULL is written to)."
  },
  {
   "property": "C98",
   "status": "partial",
   "theorems": [
    "FlatCV.Props.proper_corners_can_fall_back",
    "FlatCV.Props.perspective_maps_corners_partial"
   ],
   "note": "False: the fallback also happens for coefficients above 10^6 and pivots below 10^-10."
  },
  {
   "property": "C99",
   "status": "partial",
   "theorems": [
    "FlatCV.Props.apply_warps_partial",
    "FlatCV.Props.apply_integer_matrix_partial",
    "FlatCV.Props.apply_needs_fit"
   ],
   "note": "Proved for source and output of at most 2^29 pixels and coordinates that fit int32."
  },
  {
   "property": "C100",
   "status": "partial",
   "theorems": [
    "FlatCV.Props.apply_integer_matrix_partial",
    "FlatCV.Props.apply_flip_rotates_partial",
    "FlatCV.Props.apply_flip_matrix_not_reusable"
   ],
   "note": "False: diag(-1,-1,1) is overwritten with the size of the first image. Proved for integer matrices other than that one."
  },
  {
   "property": "C60",
   "status": "partial",
   "theorems": [
    "FlatCV.Props.sort_corners_permutes",
    "FlatCV.Props.sort_corners_clockwise",
    "FlatCV.Props.sort_corners_completes",
    "FlatCV.Props.sort_corners_few",
    "FlatCV.Props.sort_corners_three_overruns",
    "FlatCV.Props.quadrant_of_accurate"
   ],
   "note": "Permutation and memory safety for all doubles (NaN and infinities included), for any atan2 with values in [-pi, pi] or NaN. The order is proved when the directions of the corners differ by 2e-6 or more; the comparison used for closer directions is not an order."
  },
  {
   "property": "C101",
   "status": "proved",
   "theorems": [
    "FlatCV.Props.sort_corners_rectangle",
    "FlatCV.Props.sort_corners_three_of_rectangle",
    "FlatCV.Props.quadrant_of_accurate",
    "FlatCV.Props.diagonal_range",
    "FlatCV.Props.diagonal_quadrant"
   ],
   "note": "Integer corners up to 2^20, one side at most 10000 times the other; atan2 is a parameter assumed accurate to 1e-6."
  },
  {
   "property": "C102",
   "status": "partial",
   "theorems": [
    "FlatCV.Props.sort_corners_not_parallelogram",
    "FlatCV.Props.sort_corners_three_of_rectangle"
   ],
   "note": "False: three corners of a square standing on its corner are completed with a corner of the bounding box. Holds for upright rectangles."
  },
  {
   "property": "C61",
   "status": "partial",
   "theorems": [
    "FlatCV.Props.select_corners_safe_partial",
    "FlatCV.Props.select_corners_few",
    "FlatCV.Props.select_corners_none"
   ],
   "note": "False for fewer than four peaks: every such call ends in undefined behaviour (division by zero or a read outside the array for 0, an uninitialised read for 1 and 2, an overrun of the corner array for 3). With four or more peaks the selection is memory safe."
  },
  {
   "property": "C103",
   "status": "proved",
   "theorems": [
    "FlatCV.Props.detect_corners_inside",
    "FlatCV.Props.detect_corners_are_peaks"
   ],
   "note": "Images below 2^32 bytes, allocation succeeds, exp and atan2 are parameters with the stated contracts."
  },
  {
   "property": "C104",
   "status": "partial",
   "theorems": [
    "FlatCV.Props.detect_corners_leaks"
   ],
   "note": "False of every call that returns: exactly two blocks (the wide segmented image and the point array of the last peak search) stay allocated, and nothing else does."
  },
  {
   "property": "C105",
   "status": "proved",
   "theorems": [
    "FlatCV.Props.detect_corners_runs",
    "FlatCV.Props.detect_corners_asserts"
   ],
   "note": "Eight attempts at most; the accuracy threshold 0.01 itself is never tried. Calls with fewer than four peaks after the last attempt are undefined (C61)."
  },
  {
   "property": "C64",
   "status": "partial",
   "theorems": [
    "FlatCV.Props.geometry_size",
    "FlatCV.Props.geometry_size_x",
    "FlatCV.Props.geometry_size_x_y",
    "FlatCV.Props.geometry_zero",
    "FlatCV.Props.geometry_oversized",
    "FlatCV.Props.geometry_offset_range",
    "FlatCV.Props.geometry_shape",
    "FlatCV.Props.geometry_minus_wraps",
    "FlatCV.Props.geometry_long32"
   ],
   "note": "All numbers in range are returned exactly and every accepted string has the stated shape (for 64-bit long also with range checks). False: a minus sign on the size is accepted when the value wraps into range, and where long has 32 bits offsets out of range are clamped instead of rejected."
  },
  {
   "property": "C65",
   "status": "partial",
   "theorems": [
    "FlatCV.Props.parse_pipeline_runs_partial",
    "FlatCV.Props.parse_pipeline_means",
    "FlatCV.Props.parse_pipeline_names",
    "FlatCV.Props.parse_pipeline_arguments",
    "FlatCV.Props.extract_to_overflows",
    "FlatCV.Props.extract_to_negative",
    "FlatCV.Props.tab_is_no_separator"
   ],
   "note": "Every argument list whose sizes fit size_t, allocation succeeding. Excluded: numbers of extract_document_to beyond int, which are undefined behaviour of atoi (extract_to_overflows). atof and printf %.2f are parameters. Names are stored cut to 31, string parameters to 63 characters."
  },
  {
   "property": "C09",
   "status": "partial",
   "theorems": [
    "FlatCV.Props.invalid_rejected_partial",
    "FlatCV.Props.invalid_signed_rejected_partial",
    "FlatCV.Props.draw_rejects",
    "FlatCV.Props.extract_document_null",
    "FlatCV.Props.extract_document_aborts"
   ],
   "note": "All modelled image functions. False for fcv_extract_document and fcv_extract_document_auto with a size of 0 (or 2^31 and more): an assertion terminates the program."
  },
  {
   "property": "C10",
   "status": "partial",
   "theorems": [
    "FlatCV.Props.flip_x_tidy",
    "FlatCV.Props.flip_y_tidy",
    "FlatCV.Props.transpose_tidy",
    "FlatCV.Props.transverse_tidy",
    "FlatCV.Props.rotate_90_tidy",
    "FlatCV.Props.rotate_180_tidy",
    "FlatCV.Props.rotate_270_tidy",
    "FlatCV.Props.crop_tidy",
    "FlatCV.Props.rgba_to_grayscale_tidy",
    "FlatCV.Props.single_to_multichannel_tidy",
    "FlatCV.Props.grayscale_tidy",
    "FlatCV.Props.grayscale_stretch_tidy",
    "FlatCV.Props.convert_to_binary_tidy",
    "FlatCV.Props.gaussian_blur_tidy",
    "FlatCV.Props.bw_smart_tidy",
    "FlatCV.Props.foerstner_corner_tidy",
    "FlatCV.Props.sobel_tidy",
    "FlatCV.Props.otsu_tidy",
    "FlatCV.Props.dilation_tidy",
    "FlatCV.Props.erosion_tidy",
    "FlatCV.Props.closing_tidy",
    "FlatCV.Props.opening_tidy",
    "FlatCV.Props.watershed_tidy",
    "FlatCV.Props.histogram_tidy",
    "FlatCV.Props.add_border_tidy",
    "FlatCV.Props.resize_tidy",
    "FlatCV.Props.apply_matrix_tidy",
    "FlatCV.Props.trim_tidy",
    "FlatCV.Props.trim_threshold_tidy",
    "FlatCV.Props.corner_peaks_tidy",
    "FlatCV.Props.count_colors_tidy",
    "FlatCV.Props.detect_corners_tidy_partial",
    "FlatCV.Props.detect_corners_ptr_tidy_partial",
    "FlatCV.Props.extract_document_tidy_partial",
    "FlatCV.Props.extract_document_auto_tidy_partial",
    "FlatCV.Props.allocation_failure",
    "FlatCV.Props.perspective_null_deref"
   ],
   "note": "No condition on arguments, contents or which allocations fail; runs that end in undefined behaviour inside a computation on block contents (the subject of the other properties) make no statement about the heap. False for fcv_calculate_perspective_transform, which dereferences NULL, and for corner detection, which terminates the program."
  },
  {
   "property": "C11",
   "status": "partial",
   "theorems": [
    "FlatCV.Props.flip_x_tidy",
    "FlatCV.Props.flip_y_tidy",
    "FlatCV.Props.transpose_tidy",
    "FlatCV.Props.transverse_tidy",
    "FlatCV.Props.rotate_90_tidy",
    "FlatCV.Props.rotate_180_tidy",
    "FlatCV.Props.rotate_270_tidy",
    "FlatCV.Props.crop_tidy",
    "FlatCV.Props.rgba_to_grayscale_tidy",
    "FlatCV.Props.single_to_multichannel_tidy",
    "FlatCV.Props.grayscale_tidy",
    "FlatCV.Props.grayscale_stretch_tidy",
    "FlatCV.Props.convert_to_binary_tidy",
    "FlatCV.Props.gaussian_blur_tidy",
    "FlatCV.Props.bw_smart_tidy",
    "FlatCV.Props.foerstner_corner_tidy",
    "FlatCV.Props.sobel_tidy",
    "FlatCV.Props.otsu_tidy",
    "FlatCV.Props.dilation_tidy",
    "FlatCV.Props.erosion_tidy",
    "FlatCV.Props.closing_tidy",
    "FlatCV.Props.opening_tidy",
    "FlatCV.Props.watershed_tidy",
    "FlatCV.Props.histogram_tidy",
    "FlatCV.Props.add_border_tidy",
    "FlatCV.Props.resize_tidy",
    "FlatCV.Props.apply_matrix_tidy",
    "FlatCV.Props.trim_tidy",
    "FlatCV.Props.trim_threshold_tidy",
    "FlatCV.Props.corner_peaks_tidy",
    "FlatCV.Props.count_colors_tidy",
    "FlatCV.Props.detect_corners_tidy_partial",
    "FlatCV.Props.detect_corners_ptr_tidy_partial",
    "FlatCV.Props.extract_document_tidy_partial",
    "FlatCV.Props.extract_document_auto_tidy_partial",
    "FlatCV.Props.success_leaves_result",
    "FlatCV.Props.detect_corners_leaks"
   ],
   "note": "As for C10. Corner detection leaves two blocks (proved to be lost: C104), extraction at most one more."
  },
  {
   "property": "C62",
   "status": "proved",
   "theorems": [
    "FlatCV.Props.rotate_op_turns",
    "FlatCV.Props.rotate_op_refuses",
    "FlatCV.Props.turned_dims",
    "FlatCV.Props.rotate_fraction"
   ],
   "note": "For every RGBA image and every int angle. Angles that are no integers are cut off first (rotate_fraction)."
  },
  {
   "property": "C63",
   "status": "proved",
   "theorems": [
    "FlatCV.Props.crop_op_gives",
    "FlatCV.Props.crop_op_refuses"
   ],
   "note": "For every RGBA image, all int offsets and all 32-bit sizes."
  },
  {
   "property": "C67",
   "status": "partial",
   "theorems": [
    "FlatCV.Props.execute_pipeline_leaves_partial",
    "FlatCV.Props.execute_pipeline_tidy",
    "FlatCV.Props.execute_pipeline_empty",
    "FlatCV.Props.detect_op_leaks"
   ],
   "note": "execute_pipeline_tidy is the full statement for pipelines without corner detection. False with it: each of the operations detect_corners, draw_corners, extract_document and extract_document_to leaves blocks behind, at most three (execute_pipeline_leaves_partial); detect_corners always does (detect_op_leaks)."
  },
  {
   "property": "C106",
   "status": "partial",
   "theorems": [
    "FlatCV.Props.main_releases_partial",
    "FlatCV.Props.main_releases_all"
   ],
   "note": "main_releases_all is the full statement for command lines without an operation that detects corners; with them at most three blocks for each remain. Blocks allocated inside the image decoder and encoder and by the C library (fopen) are not modelled."
  },
  {
   "property": "C66",
   "status": "partial",
   "theorems": [
    "FlatCV.Props.apply_operation_proper",
    "FlatCV.Props.execute_pipeline_proper_partial"
   ],
   "note": "For every pipeline, all parameters, all image contents and all allocation failures. Missing: initialisation is shown for images up to 2^32 bytes only; images handed to operations have sides below 2^31; size_t of at least 64 bits."
  },
  {
   "property": "C107",
   "status": "proved",
   "theorems": [
    "FlatCV.Props.asks_fulfilled"
   ],
   "note": "Asks (Spec/CliMeaning) gives the meaning of each piece. Blur with integer radii up to 1000, erode and friends up to 32767, histogram below 2^32/200 pixels, bw_smart and bw_smooth up to 10^8 pixels; colours as RGB or RRGGBB; atof values finite. exp as in ExpOk."
  },
  {
   "property": "C108",
   "status": "proved",
   "theorems": [
    "FlatCV.Props.pipeline_leads"
   ],
   "note": "Leads (Spec/CliMeaning) chains the meanings; the C64/C65 theorems relate the text to its pieces."
  },
  {
   "property": "C109",
   "status": "proved",
   "theorems": [
    "FlatCV.Props.main_leads"
   ],
   "note": "Conditions: no allocation fails, long has at least 32 bits, a PNG is less than 2^29 pixels wide, the EXIF headers are well formed or absent (ShowsOrientation). The image decoder and encoder are parameters of the model."
  },
  {
   "property": "C110",
   "status": "partial",
   "theorems": [
    "FlatCV.Props.not_resizeToExact",
    "FlatCV.Props.resize_to_partial"
   ],
   "note": "False: resize 29x1 makes an image 28 pixels wide of one that is 25 pixels wide, 800 to 113 gives 112. Proved: each side is the wanted one or one pixel less, and exact if the quotient of the sizes is a double."
  },
  {
   "property": "C112",
   "status": "partial",
   "theorems": [
    "FlatCV.Props.vectors_readable",
    "FlatCV.Props.crop_readable",
    "FlatCV.Props.sized_readable",
    "FlatCV.Props.apply_matrix_readable",
    "FlatCV.Props.extract_readable",
    "FlatCV.Props.not_vectorsReadable",
    "FlatCV.Props.morphology_exposes",
    "FlatCV.Props.convert_to_binary_exposes",
    "FlatCV.Props.sobel_exposes",
    "FlatCV.Props.foerstner_exposes"
   ],
   "note": "False: the vectors of binaryDilationDisk, binaryErosionDisk, binaryClosingDisk, binaryOpeningDisk and convertToBinary are four times, that of foerstnerCorner twice as long as the memory, that of sobelEdgeDetection on RGBA images four times; shown for every valid image. The positive theorems hold for all arguments, also invalid ones; for the other functions see C113."
  },
  {
   "property": "C113",
   "status": "proved",
   "theorems": [
    "FlatCV.Props.bindings_exact",
    "FlatCV.Props.binding_single_to_multichannel",
    "FlatCV.Props.bindings_thresholds",
    "FlatCV.Props.binding_crop",
    "FlatCV.Props.bindings_trim",
    "FlatCV.Props.binding_border",
    "FlatCV.Props.bindings_draw",
    "FlatCV.Props.binding_watershed",
    "FlatCV.Props.binding_histogram",
    "FlatCV.Props.binding_resize",
    "FlatCV.Props.binding_global_threshold",
    "FlatCV.Props.binding_sobel_gray"
   ],
   "note": "Colour texts without NUL; watershed without allocation failures; resizing: interpolation for enlargements, size only otherwise."
  },
  {
   "property": "C114",
   "status": "partial",
   "theorems": [
    "FlatCV.Props.bindings_managed",
    "FlatCV.Props.bindings_managed_sized",
    "FlatCV.Props.bindings_document_tidy_partial",
    "FlatCV.Props.binding_watershed_tidy_partial",
    "FlatCV.Props.binding_watershed_leaks",
    "FlatCV.Props.binding_perspective_partial",
    "FlatCV.Props.binding_perspective_bad_free",
    "FlatCV.Props.binding_perspective_degenerate"
   ],
   "note": "bindings_managed and bindings_managed_sized are the full statement for 28 functions. False for watershedSegmentation (the copy of the markers is lost when the markers are refused), for calculatePerspectiveTransform (releases the static matrix of the C library when the corners are degenerate or not finite) and, because of the C functions, for corner detection and extraction."
  },
  {
   "property": "C115",
   "status": "proved",
   "theorems": [
    "FlatCV.Props.corners_marshalled",
    "FlatCV.Props.matrix_marshalled",
    "FlatCV.Props.points_marshalled"
   ],
   "note": ""
  },
  {
   "property": "C111",
   "status": "proved",
   "theorems": [
    "FlatCV.Props.document_size",
    "FlatCV.Props.extract_document_auto_warps",
    "FlatCV.Props.rounded_length_unique"
   ],
   "note": "pow(x, 2) accurate to a relative 2^-50; lengths to 1/1000 pixel."
  },
  {
   "property": "C116",
   "status": "proved",
   "theorems": [
    "FlatCV.Props.extract_document_warps",
    "FlatCV.Props.extract_document_fails",
    "FlatCV.Props.extract_document_auto_warps",
    "FlatCV.Props.warpDocument_extracts",
    "FlatCV.Props.apply_needs_fit",
    "FlatCV.Props.transform_unique",
    "FlatCV.Props.document_area"
   ],
   "note": "No allocation failures. When the library chooses the size, for documents of at most 2^29 pixels (always the case up to 16000 by 16000)."
  },
  {
   "property": "C117",
   "status": "proved",
   "theorems": [
    "FlatCV.Props.png_round_trip",
    "FlatCV.Props.png_injective",
    "FlatCV.Props.png_not_writable"
   ],
   "note": "The reader in Spec/Png.lean follows the PNG, zlib and deflate specifications (8 bit per sample, no interlacing, fixed and stored blocks). Default settings of the writer: compression level 8, filter chosen automatically, no flipping."
  },
  {
   "property": "C118",
   "status": "partial",
   "theorems": [
    "FlatCV.Props.png_long_rows_overflow",
    "FlatCV.Props.png_overflow_example",
    "FlatCV.Props.png_long_rows_fit",
    "FlatCV.Props.png_round_trip"
   ],
   "note": "False of the code: rows of 2^24 bytes or more overflow an int (png_long_rows_overflow; the bound is sharp for single rows by png_long_rows_fit). Proved without overflow for rows of less than 2^24 bytes and at most 600 million bytes in all; between 600 million bytes and 2^31 it is left open."
  },
  {
   "property": "C119",
   "status": "partial",
   "theorems": [
    "FlatCV.Props.png_early_failure",
    "FlatCV.Props.png_fourth_failure",
    "FlatCV.Props.png_last_failure_leaks",
    "FlatCV.Props.png_failure_may_leak"
   ],
   "note": "False of the code: a failing fourth allocation ends the process by an assertion, a failing last one loses the compressed data. True for the first three. Reallocations of the output buffer are not modelled as separate allocations."
  },
  {
   "property": "C120",
   "status": "proved",
   "theorems": [
    "FlatCV.Props.main_png_file"
   ],
   "note": "Composition of C109 and C117: main hands the result to stbi_write_png; the writer is run from any heap without failing allocations."
  },
  {
   "property": "C121",
   "status": "proved",
   "theorems": [
    "FlatCV.Props.inflate_safe",
    "FlatCV.Props.inflate_initialised"
   ],
   "note": "The first size is 1 to 2^32-1 (the PNG decoder never asks for 0). Pointers are indices; comparing a pointer beyond the end of its block is not counted as undefined."
  },
  {
   "property": "C122",
   "status": "proved",
   "theorems": [
    "FlatCV.Props.inflate_complete",
    "FlatCV.Props.inflate_of_compress"
   ],
   "note": "zlibDecode (Spec/Inflate.lean, Spec/Huffman.lean) follows RFC 1950 and 1951; codes that leave bit patterns unused are allowed. The contents must fit in the first buffer, or reallocations succeed and they have at most 2^31 bytes."
  },
  {
   "property": "C123",
   "status": "partial",
   "theorems": [
    "FlatCV.Props.inflate_sound",
    "FlatCV.Props.inflate_ignores_checksum"
   ],
   "note": "False of the code: the checksum is not looked at (inflate_ignores_checksum). Proved: header and deflate stream are right, where zero bytes count as appended if the bytes end too early."
  },
  {
   "property": "C124",
   "status": "partial",
   "theorems": [
    "FlatCV.Props.load_png_outcome_partial",
    "FlatCV.Props.load_png_safe",
    "FlatCV.Props.load_png_too_large",
    "FlatCV.Props.load_png_uninit_palette",
    "FlatCV.Props.load_png_grey16_overflow"
   ],
   "note": "False of the code in two cases, both shown by files: an index beyond the palette reads entries that were never written (load_png_uninit_palette), and a grey image with 16 bits and at least 2^29 pixels is converted into a block whose size wrapped around 2^32 (load_png_grey16_overflow, a valid file). Proved: nothing else can go wrong (load_png_outcome_partial); without a palette and below that size loading is safe for all bytes (load_png_safe). If the first chunk is CgBI, the header is not at its usual place, and the two cases cannot be told from fixed bytes. Pointers are indices; a memcpy of 0 bytes to NULL is not counted as undefined."
  },
  {
   "property": "C125",
   "status": "proved",
   "theorems": [
    "FlatCV.Props.load_png_correct"
   ],
   "note": "IsPng (Spec/PngDecode.lean) follows RFC 2083. Limits: 16777216 in each direction (the decoder refuses more), 200 million pixels, IDAT chunks of at most 2^30 bytes, compressed and decompressed data below 2^31 bytes. Called for four channels, as main does."
  },
  {
   "property": "C126",
   "status": "partial",
   "theorems": [
    "FlatCV.Props.png_write_load",
    "FlatCV.Props.png_write_load_rgba",
    "FlatCV.Props.png_write_load_tall"
   ],
   "note": "False of the code for images with more than 16777216 rows, which are written but refused by the decoder (png_write_load_tall). Proved for at most 16777216 rows and 200 million pixels."
  },
  {
   "property": "C127",
   "status": "proved",
   "theorems": [
    "FlatCV.Props.main_png_to_png",
    "FlatCV.Props.opens_png"
   ],
   "note": "Composition of C120, C125 and the writer. The allocations inside the decoder are independent of the heap of main."
  },
  {
   "property": "C128",
   "status": "partial",
   "theorems": [
    "FlatCV.Props.jpeg_shift_overflows",
    "FlatCV.Props.jpeg_file"
   ],
   "note": "False of the code: bitBuf is a signed int, and bitBuf <<= 8 overflows as soon as a byte with its top bit set is written (jpeg_shift_overflows, for one black pixel). Proved: with the shift taken as a shift of the 32 bits, as compilers do, nothing else goes wrong (jpeg_file: the model stops at every bad access, uninitialised value or overflow, and it does not stop)."
  },
  {
   "property": "C129",
   "status": "proved",
   "theorems": [
    "FlatCV.Props.jpeg_file"
   ],
   "note": "Four bytes per pixel and quality 90, as main calls it. readJpeg (Spec/Jpeg.lean) follows ITU-T T.81; ideal is the cosine transform over the reals of the samples by ITU-T T.871 (mean of two by two pixels for the differences, the nearest pixel outside the image). Floats are IEEE binary32 without contraction. The left shift of a signed int is a shift of the bits (see C128)."
  },
  {
   "property": "C130",
   "status": "proved",
   "theorems": [
    "FlatCV.Props.jpeg_recon"
   ],
   "note": "From C129 and Parseval's identity for the cosine transform (Lemmas/JpegInverse.lean). The bounds are sums over the quantisation steps; clamping of samples to 0..255 and upsampling in a decoder are not part of it."
  },
  {
   "property": "C131",
   "status": "partial",
   "theorems": [
    "FlatCV.Props.jpeg_side_lost",
    "FlatCV.Props.jpeg_file"
   ],
   "note": "False of the code: the sides are cut to 16 bits without an error (jpeg_side_lost: all sizes with a side between 65536 and 900000 that int can index). Proved up to 65535 (jpeg_file)."
  },
  {
   "property": "C132",
   "status": "proved",
   "theorems": [
    "FlatCV.Props.main_jpeg_file"
   ],
   "note": "Composition of C109 and C130: main hands the result to stbi_write_jpg."
  },
  {
   "property": "C133",
   "status": "proved",
   "theorems": [
    "FlatCV.Props.jpeg_idct",
    "FlatCV.Props.jpeg_constants"
   ],
   "note": "Scalar kernel (the SIMD kernels are not modelled). The constants in the model are shown to be the values of the macros, with binary32 literals (jpeg_constants)."
  },
  {
   "property": "C134",
   "status": "partial",
   "theorems": [
    "FlatCV.Props.jpeg_idct_overflows",
    "FlatCV.Props.jpeg_idct"
   ],
   "note": "False of the code for large coefficients of corrupt files (jpeg_idct_overflows: all coefficients 32767). Proved up to 2300 (jpeg_idct)."
  },
  {
   "property": "C135",
   "status": "proved",
   "theorems": [
    "FlatCV.Props.jpeg_colours",
    "FlatCV.Props.jpeg_red_near",
    "FlatCV.Props.jpeg_green_near",
    "FlatCV.Props.jpeg_blue_near"
   ],
   "note": "Step of four bytes per pixel, as for req_comp 4; scalar kernel."
  },
  {
   "property": "C136",
   "status": "partial",
   "theorems": [
    "FlatCV.Props.jpeg_enlarge_both",
    "FlatCV.Props.jpeg_enlarge_rows",
    "FlatCV.Props.jpeg_enlarge_columns_partial",
    "FlatCV.Props.jpeg_enlarge_columns_wrong"
   ],
   "note": "False of the code for the reduction of columns only: at the last but one position the weights are exchanged (jpeg_enlarge_columns_wrong: 64 instead of 191). Proved everywhere else, and for the two other reductions."
  },
  {
   "property": "C137",
   "status": "proved",
   "theorems": [
    "FlatCV.Props.jpeg_load"
   ],
   "note": "The whole sequential decoder is modelled (Model/JpegLoad.lean) with the scalar kernels; the SIMD kernels that stb_image uses on x86 and ARM are not. Writer with the signed shift read as a shift of bits (see C128)."
  },
  {
   "property": "C138",
   "status": "proved",
   "theorems": [
    "FlatCV.Props.jpeg_grey"
   ],
   "note": "Same model as C137."
  },
  {
   "property": "C139",
   "status": "proved",
   "theorems": [
    "FlatCV.Props.jpeg_one_grey"
   ],
   "note": "Same model as C137."
  },
  {
   "property": "C140",
   "status": "proved",
   "theorems": [
    "FlatCV.Props.jpeg_one_colour"
   ],
   "note": "Same model as C137."
  },
  {
   "property": "C141",
   "status": "proved",
   "theorems": [
    "FlatCV.Props.main_jpeg_again",
    "FlatCV.Props.opens_jpeg"
   ],
   "note": "Composition of C137 with main as in C127. main is modelled with a decoder that returns a block; DecodesJpeg says that it is the result of the JPEG decoder without the one byte that stb_image allocates in addition."
  },
  {
   "property": "C142",
   "status": "proved",
   "theorems": [
    "FlatCV.Props.jpeg_any_file",
    "FlatCV.Props.jpeg_no_scan_uninit",
    "FlatCV.Props.jpeg_large_coefs_overflow",
    "FlatCV.Props.jpeg_full_table_assert",
    "FlatCV.Props.fullTableFile_full"
   ],
   "note": "All executions of the sequential decoder on arbitrary bytes, including the end of the file anywhere and failing allocations; the three failures are each shown by a file. The hypothesis FeofSound says that feof is true after fread returned nothing. Progressive files and other formats are parameters (prog, other)."
  },
  {
   "property": "C143",
   "status": "proved",
   "theorems": [
    "FlatCV.Props.jpeg_any_file_progressive",
    "FlatCV.Props.jpeg_prog_cut_uninit",
    "FlatCV.Props.jpeg_prog_no_scan_uninit"
   ],
   "note": "All executions of the sequential and the progressive decoder on arbitrary bytes; FeofSound as in C142. Two files show the use of memory that was never written; the other two faults are shown in C142. Other formats are a parameter (other)."
  },
  {
   "property": "C144",
   "status": "proved",
   "theorems": [
    "FlatCV.Props.band_scan",
    "FlatCV.Props.table_from_file",
    "FlatCV.Props.first_scan_block",
    "FlatCV.Props.first_scan_run",
    "FlatCV.Props.refining_scan_block",
    "FlatCV.Props.refining_scan_run",
    "FlatCV.Props.last_scan"
   ],
   "note": "prog_entropy for a scan of one band, from the bytes of the scan up to the next marker; T.81 is the relation BandScan (Spec/JpegProg.lean). The hypotheses tableOk and facOk are what table_from_file gives for every table in a file. Files with restart intervals are outside the statement."
  },
  {
   "property": "C145",
   "status": "proved",
   "theorems": [
    "FlatCV.Props.finish_samples"
   ],
   "note": "jpeg_finish for all components. The result is stated with BlockCells, which is also what the baseline decoder is proved to give in C137-C139; C133 bounds its distance from the exact inverse transform. Larger products are outside the range for which the integer transform is modelled without overflow."
  },
  {
   "property": "C146",
   "status": "proved",
   "theorems": [
    "FlatCV.Props.table_from_file",
    "FlatCV.Props.dc_scan_interleaved",
    "FlatCV.Props.dc_scan_one",
    "FlatCV.Props.first_scan_dc",
    "FlatCV.Props.refining_scan_dc"
   ],
   "note": "prog_entropy for DC scans, from the bytes of the scan up to the next marker; T.81 is the relation DcScan (Spec/JpegProg.lean). Tables as for C144. Files with restart intervals are outside the statement."
  },
  {
   "property": "C147",
   "status": "proved",
   "theorems": [
    "FlatCV.Props.load_pnm_exact"
   ],
   "note": "stbi_load_pnm (Model/Pnm.lean) on every file that Spec/Pnm.lean calls valid; FeofHonest: feof is true only at the end of the file; allocations succeed."
  },
  {
   "property": "C148",
   "status": "partial",
   "theorems": [
    "FlatCV.Props.load_pnm_levels_partial",
    "FlatCV.Props.load_pnm_dark",
    "FlatCV.Props.load_pnm_low_bytes"
   ],
   "note": "False for the code: samples are not scaled, and 16-bit samples are shown by their less significant byte (they are not swapped on a little endian host). load_pnm_levels_partial says exactly what is shown (the sample modulo 256), load_pnm_dark and load_pnm_low_bytes prove the failure for every file with a white pixel and M < 255, and for every 16-bit file with a sample 255."
  },
  {
   "property": "C149",
   "status": "partial",
   "theorems": [
    "FlatCV.Props.pnm_any_file_partial",
    "FlatCV.Props.pnm_grey16_overflow",
    "FlatCV.Props.pnm_bad_maximum"
   ],
   "note": "Proved for all files of less than 1 GiB. False beyond: pnm_grey16_overflow shows that every valid PGM file with 16 bits and 2^29 or more pixels makes stbi__convert_format16 write behind its block. pnm_bad_maximum: an absurd largest sample is accepted. FeofSound as in C142."
  },
  {
   "property": "C150",
   "status": "proved",
   "theorems": [
    "FlatCV.Props.main_pnm_to_png"
   ],
   "note": "main (Model/Cli.lean) with the decoder of C147 (hypothesis DecodesPnm: the load function of the world returns what the model of stbi_load returns) and the PNG writer of C115-C119. Output files named .jpg are not covered here."
  },
  {
   "property": "C151",
   "status": "proved",
   "theorems": [
    "FlatCV.Props.unknown_refused",
    "FlatCV.Props.text_refused",
    "FlatCV.Props.empty_refused",
    "FlatCV.Props.png_recognised",
    "FlatCV.Props.jpeg_recognised",
    "FlatCV.Props.pnm_recognised",
    "FlatCV.Props.all_png",
    "FlatCV.Props.all_jpeg",
    "FlatCV.Props.all_pnm"
   ],
   "note": "stbi_load_all (Model/ImageFormat.lean). A file with a signature or a second byte 0 or 1 may still be refused by further tests; that is modelled but not part of the claim. The decoders for BMP, GIF, PSD, PIC, HDR and TGA are not modelled (parameter other)."
  },
  {
   "property": "C152",
   "status": "proved",
   "theorems": [
    "FlatCV.Props.main_refused",
    "FlatCV.Props.main_text_refused",
    "FlatCV.Props.main_empty_refused"
   ],
   "note": "main (Model/Cli.lean) with the choice of the decoder of C151 (hypothesis DecodesAll: the load function of the world returns what stbi_load_all returns)."
  },
  {
   "property": "C153",
   "status": "proved",
   "theorems": [
    "FlatCV.Props.any_file_outcome"
   ],
   "note": "stbi_load_all (Model/ImageFormat.lean): C124, C143 and C149 behind the real order of the tests. That the listed faults do occur is shown in C124, C142, C143 and C149. If the first chunk of a PNG file is CgBI, the palette and the size are not where the condition looks, and it says nothing. FeofSound as in C142."
  },
  {
   "property": "C154",
   "status": "proved",
   "theorems": [
    "FlatCV.Props.main_png_to_jpeg",
    "FlatCV.Props.main_pnm_to_jpeg",
    "FlatCV.Props.decodes_all_png",
    "FlatCV.Props.decodes_all_pnm"
   ],
   "note": "main (Model/Cli.lean) with DecodesAll as in C152. decodes_all_png and decodes_all_pnm also bring C127 and C150 behind the real order of the tests for formats."
  }
 ]
}