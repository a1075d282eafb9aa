FlatCV.Props.flip_x_correct: Classical.choice, Quot.sound, propext
FlatCV.Props.flip_x_pixel: Classical.choice, Quot.sound, propext
FlatCV.Props.flip_y_correct: Classical.choice, Quot.sound, propext
FlatCV.Props.transpose_correct: Classical.choice, Quot.sound, propext
FlatCV.Props.transverse_correct: Classical.choice, Quot.sound, propext
FlatCV.Props.rotate_90_correct: Classical.choice, Quot.sound, propext
FlatCV.Props.rotate_180_correct: Classical.choice, Quot.sound, propext
FlatCV.Props.rotate_270_correct: Classical.choice, Quot.sound, propext
FlatCV.Props.flip_x_flip_x: Classical.choice, Quot.sound, propext
FlatCV.Props.flip_y_flip_y: Classical.choice, Quot.sound, propext
FlatCV.Props.rotate_180_rotate_180: Classical.choice, Quot.sound, propext
FlatCV.Props.transpose_transpose: Classical.choice, Quot.sound, propext
FlatCV.Props.transverse_transverse: Classical.choice, Quot.sound, propext
FlatCV.Props.rotate_90_rotate_270: Classical.choice, Quot.sound, propext
FlatCV.Props.rotate_270_rotate_90: Classical.choice, Quot.sound, propext
FlatCV.Props.rotate_90_twice: Classical.choice, Quot.sound, propext
FlatCV.Props.rotate_90_four_times: Classical.choice, Quot.sound, propext
FlatCV.Props.flip_x_flip_y_eq_rotate_180: Classical.choice, Quot.sound, propext
FlatCV.Props.transpose_flip_x_eq_rotate_90: Classical.choice, Quot.sound, propext
FlatCV.Props.transpose_rotate_180_eq_transverse: Classical.choice, Quot.sound, propext
FlatCV.Props.crop_correct: Classical.choice, Quot.sound, propext
FlatCV.Props.crop_rejects: Quot.sound, propext
FlatCV.Props.crop_full: Classical.choice, Quot.sound, propext
FlatCV.Props.crop_crop: Classical.choice, Quot.sound, propext
FlatCV.Props.rgba_to_grayscale_correct: Classical.choice, Quot.sound, propext
FlatCV.Props.luma_value: Quot.sound, propext
FlatCV.Props.luma_gray: Quot.sound, propext
FlatCV.Props.luma_mono: Quot.sound, propext
FlatCV.Props.luma_between: Classical.choice, Quot.sound, propext
FlatCV.Props.grayscale_correct: Classical.choice, Quot.sound, propext
FlatCV.Props.grayscale_idempotent: Classical.choice, Quot.sound, propext
FlatCV.Props.grayscale_covers_partial: Classical.choice, Quot.sound, propext
FlatCV.Props.grayscale_uninitialised: Quot.sound, propext
FlatCV.Props.not_grayscaleCoversEveryPixel: Quot.sound, propext
FlatCV.Props.single_to_multichannel_correct: Classical.choice, Quot.sound, propext
FlatCV.Props.grayscale_of_multichannel: Classical.choice, Quot.sound, propext
FlatCV.Props.grayscale_stretch_correct: Classical.choice, Quot.sound, propext
FlatCV.Props.stretch_mono: Quot.sound, propext
FlatCV.Props.stretch_ends: Quot.sound, propext
FlatCV.Props.stretch_flat: propext
FlatCV.Props.stretch_outliers: Classical.choice, Quot.sound, propext
FlatCV.Props.global_threshold_correct: Quot.sound, propext
FlatCV.Props.parse_hex_color_valid: Classical.choice, Quot.sound, propext
FlatCV.Props.parse_hex_color_invalid: Classical.choice, Quot.sound, propext
FlatCV.Props.convert_to_binary_correct: Classical.choice, Quot.sound, propext
FlatCV.Props.dilation_correct: Classical.choice, Quot.sound, propext
FlatCV.Props.erosion_correct: Classical.choice, Quot.sound, propext
FlatCV.Props.binImg_binary: Classical.choice, Quot.sound, propext
FlatCV.Props.closing_is_closing: Classical.choice, Quot.sound, propext
FlatCV.Props.closing_increasing: Classical.choice, Quot.sound, propext
FlatCV.Props.closing_yields: Classical.choice, Quot.sound, propext
FlatCV.Props.opening_is_opening: Classical.choice, Quot.sound, propext
FlatCV.Props.opening_increasing: Classical.choice, Quot.sound, propext
FlatCV.Props.opening_yields: Classical.choice, Quot.sound, propext
FlatCV.Props.morphology_radius_partial: Classical.choice, Quot.sound, propext
FlatCV.Props.not_morphologyAcceptsAnyRadius: Classical.choice, Quot.sound, propext
FlatCV.Props.erosion_large_radius_overflows: Classical.choice, Quot.sound, propext
FlatCV.Props.dilation_large_radius_overflows: Classical.choice, Quot.sound, propext
FlatCV.Props.trim_correct: Classical.choice, Quot.sound, propext
FlatCV.Props.trimBox_unique: Quot.sound, propext
FlatCV.Props.trim_drops_dot: Quot.sound, propext
FlatCV.Props.trim_rows_partial: Quot.sound, propext
FlatCV.Props.trim_idempotent_partial: Classical.choice, Quot.sound, propext
FlatCV.Props.not_trimIdempotent: Classical.choice, Quot.sound, propext
FlatCV.Props.trim_tolerance: Classical.choice, Quot.sound, propext
FlatCV.Props.trim_tolerance_int: Classical.choice, Quot.sound, propext
FlatCV.Props.trim_threshold_rejects: Classical.choice, Quot.sound, propext
FlatCV.Props.trim_threshold_clamps: Classical.choice, Quot.sound, propext
FlatCV.Props.trim_threshold_small: Classical.choice, Quot.sound, propext
FlatCV.Props.trim_threshold_correct: Classical.choice, Quot.sound, propext
FlatCV.Props.not_trimAnySize: Classical.choice, Quot.sound, propext
FlatCV.Props.draw_safe_partial: Classical.choice, Quot.sound, propext
FlatCV.Props.draw_rejects: Classical.choice, Quot.sound, propext
FlatCV.Props.not_drawSafe: Classical.choice, Quot.sound, propext
FlatCV.Props.draw_large_radius_faults: Classical.choice, Quot.sound, propext
FlatCV.Props.circle_only_near: Classical.choice, Quot.sound, propext
FlatCV.Props.disk_only_near: Classical.choice, Quot.sound, propext
FlatCV.Props.disk_shape: Classical.choice, Quot.sound, propext
FlatCV.Props.circle_shape: Classical.choice, Quot.sound, propext
FlatCV.Props.add_border_correct: Classical.choice, Quot.sound, propext
FlatCV.Props.crop_bordered: Classical.choice, Quot.sound, propext
FlatCV.Props.add_border_initialised_partial: Classical.choice, Quot.sound, propext
FlatCV.Props.not_borderInitialised: Classical.choice, Quot.sound, propext
FlatCV.Props.add_border_large_uninit: Classical.choice, Quot.sound, propext
FlatCV.Props.draw_luma_correct: Classical.choice, Quot.sound, propext
FlatCV.Props.histogram_correct: Classical.choice, Quot.sound, propext
FlatCV.Props.histogram_full_column: Quot.sound, propext
FlatCV.Props.histogram_depends_on_counts: Classical.choice, Quot.sound, propext
FlatCV.Props.histogram_rejects: Quot.sound, propext
FlatCV.Props.histogram_wrapped: Classical.choice, Quot.sound, propext
FlatCV.Props.not_histogramAnySize: Classical.choice, Quot.sound, propext
FlatCV.Props.histogram_large_is_empty: Classical.choice, Quot.sound, propext
FlatCV.Props.exif_roundtrip: Classical.choice, Quot.sound, propext
FlatCV.Props.exif_terminates_partial: Classical.choice, Quot.sound, propext
FlatCV.Props.exif_terminates_eoi: Classical.choice, Quot.sound, propext
FlatCV.Props.exif_diverges: Quot.sound, propext
FlatCV.Props.not_exifTerminates: Quot.sound, propext
FlatCV.Props.exif_unreadable: propext
FlatCV.Props.exif_not_jpeg: Quot.sound, propext
FlatCV.Props.exif_absent: Quot.sound, propext
FlatCV.Props.exif_outcomes_partial: Classical.choice, Quot.sound, propext
FlatCV.Props.not_exifNoUB: propext
FlatCV.Props.not_exifFillBytes: Quot.sound, propext
FlatCV.Props.watershed_terminates_partial: Classical.choice, Quot.sound, propext
FlatCV.Props.watershed_diverges: Classical.choice, Quot.sound, propext
FlatCV.Props.not_watershedTerminates: Classical.choice, Quot.sound, propext
FlatCV.Props.watershed_total: Classical.choice, Quot.sound, propext
FlatCV.Props.regionByte_not_black: Classical.choice, Quot.sound, propext
FlatCV.Props.watershed_connected: Classical.choice, Quot.sound, propext
FlatCV.Props.watershed_correct: Classical.choice, Quot.sound, propext
FlatCV.Props.watershed_floods_in_order: Classical.choice, Quot.sound, propext
FlatCV.Props.watershed_rejects_outside_partial: Classical.choice, Quot.sound, propext
FlatCV.Props.watershed_rejects: Classical.choice, Quot.sound, propext
FlatCV.Props.not_watershedRejectsOutside: Classical.choice, Quot.sound, propext
FlatCV.Props.watershed_boundary_only: Classical.choice, Quot.sound, propext
FlatCV.Props.not_watershedSeparates: Classical.choice, Quot.sound, propext
FlatCV.Props.watershed_large_uninit: Classical.choice, Quot.sound, propext
FlatCV.Props.not_watershedAnySize: Classical.choice, Quot.sound, propext
FlatCV.Props.corner_peaks_apart: Classical.choice, Quot.sound, propext
FlatCV.Props.corner_peaks_view: Classical.choice, Quot.sound, propext
FlatCV.Props.corner_peaks_qualified: Classical.choice, Quot.sound, propext
FlatCV.Props.corner_peaks_correct: Classical.choice, Quot.sound, propext
FlatCV.Props.corner_peaks_fair: Classical.choice, Quot.sound, propext
FlatCV.Props.corner_peaks_any_size_false: Classical.choice, Quot.sound, propext
FlatCV.Props.otsu_two_level: Classical.choice, Quot.sound, propext
FlatCV.Props.otsu_correct: Classical.choice, Quot.sound, propext
FlatCV.Props.otsu_first_maximum_partial: Classical.choice, Quot.sound, propext
FlatCV.Props.otsu_first_maximum_pow2_partial: Classical.choice, Quot.sound, propext
FlatCV.Props.not_otsuCutsAtFirstMaximum: Classical.choice, Quot.sound, propext
FlatCV.Props.otsu_ramp_partial: Classical.choice, Quot.sound, propext
FlatCV.Props.double_threshold_correct: Quot.sound, propext
FlatCV.Props.ramp_mono: Quot.sound, propext
FlatCV.Props.not_otsuRampIsCentred: Classical.choice, Quot.sound, propext
FlatCV.Props.double_threshold_equal_divides_by_zero: Quot.sound, propext
FlatCV.Props.otsu_keeps_both_partial: Classical.choice, Quot.sound, propext
FlatCV.Props.not_otsuKeepsBothColours: Classical.choice, Quot.sound, propext
FlatCV.Props.otsu_any_size_partial: Classical.choice, Quot.sound, propext
FlatCV.Props.otsu_large_hangs: Classical.choice, Quot.sound, propext
FlatCV.Props.not_otsuAnySize: Classical.choice, Quot.sound, propext
FlatCV.Props.orient_correct: Classical.choice, Quot.sound, propext
FlatCV.Props.orient_outcome: Classical.choice, Quot.sound, propext
FlatCV.Props.upright_uprightImg: Quot.sound, propext
FlatCV.Props.Upright.unique: Quot.sound, propext
FlatCV.Props.not_orientConsistent: Quot.sound, propext
FlatCV.Props.count_colors_correct: Classical.choice, Quot.sound, propext
FlatCV.Props.count_colors_overflow: Quot.sound, propext
FlatCV.Props.blur_radius_zero: Classical.choice, Quot.sound, propext
FlatCV.Props.blur_bad_radius: Classical.choice, Quot.sound, propext
FlatCV.Props.blur_rejects: Classical.choice, Quot.sound, propext
FlatCV.Props.blur_writes_all_partial: Classical.choice, Quot.sound, propext
FlatCV.Props.usual_radius: Classical.choice, Quot.sound, propext
FlatCV.Props.blur_tiny_radius_faults: Classical.choice, Quot.sound, propext
FlatCV.Props.not_blurWritesAll: Classical.choice, Quot.sound, propext
FlatCV.Props.blur_no_overshoot: Classical.choice, Quot.sound, propext
FlatCV.Props.averaged_bounds: Classical.choice, Quot.sound, propext
FlatCV.Props.winMean_bounds: Classical.choice, Quot.sound, propext
FlatCV.Props.blur_gaussian_partial: Classical.choice, Quot.sound, propext
FlatCV.Props.blur_two: Classical.choice, Quot.sound, propext
FlatCV.Props.not_blurGaussian: Classical.choice, Quot.sound, propext
FlatCV.Props.blur_mirrors_partial: Classical.choice, Quot.sound, propext
FlatCV.Props.not_blurMirrors: Classical.choice, Quot.sound, propext
FlatCV.Props.blur_uniform_partial: Classical.choice, Quot.sound, propext
FlatCV.Props.not_blurKeepsUniform: Classical.choice, Quot.sound, propext
FlatCV.Props.blur_half_runs: Classical.choice, Quot.sound, propext
FlatCV.Props.resize_rejects: Classical.choice, Quot.sound, propext
FlatCV.Props.resize_empty: Classical.choice, Quot.sound, propext
FlatCV.Props.resize_too_large: Classical.choice, Quot.sound, propext
FlatCV.Props.resize_dims: Classical.choice, Quot.sound, propext
FlatCV.Props.resize_safe: Classical.choice, Quot.sound, propext
FlatCV.Props.resize_identity: Classical.choice, Quot.sound, propext
FlatCV.Props.resize_between_partial: Classical.choice, Quot.sound, propext
FlatCV.Props.resize_uniform_partial: Classical.choice, Quot.sound, propext
FlatCV.Props.not_resizeBetween: Classical.choice, Quot.sound, propext
FlatCV.Props.resize_samples_partial: Classical.choice, Quot.sound, propext
FlatCV.Props.resize_first_column_black: Classical.choice, Quot.sound, propext
FlatCV.Props.resize_first_row_black: Classical.choice, Quot.sound, propext
FlatCV.Props.not_resizeSamples: Classical.choice, Quot.sound, propext
FlatCV.Props.resize_enlarge: Classical.choice, Quot.sound, propext
FlatCV.Props.resize_shrink_partial: Classical.choice, Quot.sound, propext
FlatCV.Props.not_resizeAverages: Classical.choice, Quot.sound, propext
FlatCV.Props.halve_whiteBlack: Classical.choice, Quot.sound, propext
FlatCV.Props.resize_mirrors_partial: Classical.choice, Quot.sound, propext
FlatCV.Props.not_resizeMirrors: Classical.choice, Quot.sound, propext
FlatCV.Props.halve_blackWhite: Classical.choice, Quot.sound, propext
FlatCV.Props.resize_initialises_partial: Classical.choice, Quot.sound, propext
FlatCV.Props.resize_leaves_uninitialised: Classical.choice, Quot.sound, propext
FlatCV.Props.not_resizeInitialises: Classical.choice, Quot.sound, propext
FlatCV.Props.sobel_normalised_partial: Classical.choice, Quot.sound, propext
FlatCV.Props.sobel_uniform: Classical.choice, Quot.sound, propext
FlatCV.Props.sobel_wide_wrong: Classical.choice, Quot.sound, propext
FlatCV.Props.not_sobelNormalised: Classical.choice, Quot.sound, propext
FlatCV.Props.sobel_safe_partial: Classical.choice, Quot.sound, propext
FlatCV.Props.sobel_rgb_reads_past: Classical.choice, Quot.sound, propext
FlatCV.Props.not_sobelInBounds: Classical.choice, Quot.sound, propext
FlatCV.Props.sobel_scaled_partial: Classical.choice, Quot.sound, propext
FlatCV.Props.bw_two_level: Classical.choice, Quot.sound, propext
FlatCV.Props.bw_smooth_gray: Classical.choice, Quot.sound, propext
FlatCV.Props.bw_run: Classical.choice, Quot.sound, propext
FlatCV.Props.bw_any_size_partial: Classical.choice, Quot.sound, propext
FlatCV.Props.bw_large_refused: Classical.choice, Quot.sound, propext
FlatCV.Props.not_bwAnySize: Classical.choice, Quot.sound, propext
FlatCV.Props.bw_black_page_partial: Classical.choice, Quot.sound, propext
FlatCV.Props.bw_page: Classical.choice, Quot.sound, propext
FlatCV.Props.not_bwBlankStaysBlank: Classical.choice, Quot.sound, propext
FlatCV.Props.foerstner_safe_partial: Classical.choice, Quot.sound, propext
FlatCV.Props.foerstner_small_images_fault: Classical.choice, Quot.sound, propext
FlatCV.Props.foerstner_not_safe: Classical.choice, Quot.sound, propext
FlatCV.Props.foerstner_measures_partial: Classical.choice, Quot.sound, propext
FlatCV.Props.stripes_no_corner_partial: Classical.choice, Quot.sound, propext
FlatCV.Props.ramp_is_not_flat: Classical.choice, Quot.sound, propext
FlatCV.Props.strongest_at_least_254_partial: Classical.choice, Quot.sound, propext
FlatCV.Props.strongest_not_255: Classical.choice, Quot.sound, propext
FlatCV.Props.solver_solves: Classical.choice, Quot.sound, propext
FlatCV.Props.perspective_maps_corners_partial: Classical.choice, Quot.sound, propext
FlatCV.Props.perspective_collinear_not_mapped: Classical.choice, Quot.sound, propext
FlatCV.Props.perspective_nonfinite: Classical.choice, Quot.sound, propext
FlatCV.Props.apply_warps_partial: Classical.choice, Quot.sound, propext
FlatCV.Props.apply_identity_copies_partial: Classical.choice, Quot.sound, propext
FlatCV.Props.apply_large_overflow: Classical.choice, Quot.sound, propext
FlatCV.Props.apply_nan_undefined: Classical.choice, Quot.sound, propext
FlatCV.Props.apply_rejects: Classical.choice, Quot.sound, propext
FlatCV.Props.apply_needs_fit: Classical.choice, Quot.sound, propext
FlatCV.Props.perspective_unique: Classical.choice, Quot.sound, propext
FlatCV.Props.perspective_same_corners: Classical.choice, Quot.sound, propext
FlatCV.Props.solver_rejects_singular: Classical.choice, Quot.sound, propext
FlatCV.Props.perspective_total_partial: Classical.choice, Quot.sound, propext
FlatCV.Props.perspective_null_deref: Classical.choice, Quot.sound, propext
FlatCV.Props.proper_corners_can_fall_back: Classical.choice, Quot.sound, propext
FlatCV.Props.apply_integer_matrix_partial: Classical.choice, Quot.sound, propext
FlatCV.Props.apply_flip_rotates_partial: Classical.choice, Quot.sound, propext
FlatCV.Props.apply_flip_matrix_not_reusable: Classical.choice, Quot.sound, propext
FlatCV.Props.sort_corners_permutes: Classical.choice, Quot.sound, propext
FlatCV.Props.sort_corners_clockwise: Classical.choice, Quot.sound, propext
FlatCV.Props.sort_corners_completes: Classical.choice, Quot.sound, propext
FlatCV.Props.sort_corners_few: Classical.choice, Quot.sound, propext
FlatCV.Props.sort_corners_three_overruns: Classical.choice, Quot.sound, propext
FlatCV.Props.quadrant_of_accurate: Classical.choice, Quot.sound, propext
FlatCV.Props.sort_corners_rectangle: Classical.choice, Quot.sound, propext
FlatCV.Props.sort_corners_three_of_rectangle: Classical.choice, Quot.sound, propext
FlatCV.Props.diagonal_range: Classical.choice, Quot.sound, propext
FlatCV.Props.diagonal_quadrant: Classical.choice, Quot.sound, propext
FlatCV.Props.sort_corners_not_parallelogram: Classical.choice, Quot.sound, propext
FlatCV.Props.select_corners_safe_partial: Classical.choice, Quot.sound, propext
FlatCV.Props.select_corners_few: Classical.choice, Quot.sound, propext
FlatCV.Props.select_corners_none: Classical.choice, Quot.sound, propext
FlatCV.Props.detect_corners_inside: Classical.choice, Quot.sound, propext
FlatCV.Props.detect_corners_are_peaks: Classical.choice, Quot.sound, propext
FlatCV.Props.detect_corners_leaks: Classical.choice, Quot.sound, propext
FlatCV.Props.detect_corners_runs: Classical.choice, Quot.sound, propext
FlatCV.Props.detect_corners_asserts: Classical.choice, Quot.sound, propext
FlatCV.Props.geometry_size: Classical.choice, Quot.sound, propext
FlatCV.Props.geometry_size_x: Classical.choice, Quot.sound, propext
FlatCV.Props.geometry_size_x_y: Classical.choice, Quot.sound, propext
FlatCV.Props.geometry_zero: Classical.choice, Quot.sound, propext
FlatCV.Props.geometry_oversized: Classical.choice, Quot.sound, propext
FlatCV.Props.geometry_offset_range: Classical.choice, Quot.sound, propext
FlatCV.Props.geometry_shape: Classical.choice, Quot.sound, propext
FlatCV.Props.geometry_minus_wraps: Classical.choice, Quot.sound, propext
FlatCV.Props.geometry_long32: Classical.choice, Quot.sound, propext
FlatCV.Props.parse_pipeline_runs_partial: Classical.choice, Quot.sound, propext
FlatCV.Props.parse_pipeline_means: Classical.choice, Quot.sound, propext
FlatCV.Props.parse_pipeline_names: Classical.choice, Quot.sound, propext
FlatCV.Props.parse_pipeline_arguments: Classical.choice, Quot.sound, propext
FlatCV.Props.extract_to_overflows: Classical.choice, Quot.sound, propext
FlatCV.Props.extract_to_negative: Classical.choice, Quot.sound, propext
FlatCV.Props.tab_is_no_separator: Classical.choice, Quot.sound, propext
FlatCV.Props.invalid_rejected_partial: Classical.choice, Quot.sound, propext
FlatCV.Props.invalid_signed_rejected_partial: Classical.choice, Quot.sound, propext
FlatCV.Props.extract_document_null: Classical.choice, Quot.sound, propext
FlatCV.Props.extract_document_aborts: Classical.choice, Quot.sound, propext
FlatCV.Props.flip_x_tidy: Classical.choice, Quot.sound, propext
FlatCV.Props.flip_y_tidy: Classical.choice, Quot.sound, propext
FlatCV.Props.transpose_tidy: Classical.choice, Quot.sound, propext
FlatCV.Props.transverse_tidy: Classical.choice, Quot.sound, propext
FlatCV.Props.rotate_90_tidy: Classical.choice, Quot.sound, propext
FlatCV.Props.rotate_180_tidy: Classical.choice, Quot.sound, propext
FlatCV.Props.rotate_270_tidy: Classical.choice, Quot.sound, propext
FlatCV.Props.crop_tidy: Classical.choice, Quot.sound, propext
FlatCV.Props.rgba_to_grayscale_tidy: Classical.choice, Quot.sound, propext
FlatCV.Props.single_to_multichannel_tidy: Classical.choice, Quot.sound, propext
FlatCV.Props.grayscale_tidy: Classical.choice, Quot.sound, propext
FlatCV.Props.grayscale_stretch_tidy: Classical.choice, Quot.sound, propext
FlatCV.Props.convert_to_binary_tidy: Classical.choice, Quot.sound, propext
FlatCV.Props.gaussian_blur_tidy: Classical.choice, Quot.sound, propext
FlatCV.Props.bw_smart_tidy: Classical.choice, Quot.sound, propext
FlatCV.Props.foerstner_corner_tidy: Classical.choice, Quot.sound, propext
FlatCV.Props.sobel_tidy: Classical.choice, Quot.sound, propext
FlatCV.Props.otsu_tidy: Classical.choice, Quot.sound, propext
FlatCV.Props.dilation_tidy: Classical.choice, Quot.sound, propext
FlatCV.Props.erosion_tidy: Classical.choice, Quot.sound, propext
FlatCV.Props.closing_tidy: Classical.choice, Quot.sound, propext
FlatCV.Props.opening_tidy: Classical.choice, Quot.sound, propext
FlatCV.Props.watershed_tidy: Classical.choice, Quot.sound, propext
FlatCV.Props.histogram_tidy: Quot.sound, propext
FlatCV.Props.add_border_tidy: Classical.choice, Quot.sound, propext
FlatCV.Props.resize_tidy: Classical.choice, Quot.sound, propext
FlatCV.Props.apply_matrix_tidy: Classical.choice, Quot.sound, propext
FlatCV.Props.trim_tidy: Classical.choice, Quot.sound, propext
FlatCV.Props.trim_threshold_tidy: Classical.choice, Quot.sound, propext
FlatCV.Props.corner_peaks_tidy: Classical.choice, Quot.sound, propext
FlatCV.Props.count_colors_tidy: Classical.choice, Quot.sound, propext
FlatCV.Props.detect_corners_tidy_partial: Classical.choice, Quot.sound, propext
FlatCV.Props.detect_corners_ptr_tidy_partial: Classical.choice, Quot.sound, propext
FlatCV.Props.extract_document_tidy_partial: Classical.choice, Quot.sound, propext
FlatCV.Props.extract_document_auto_tidy_partial: Classical.choice, Quot.sound, propext
FlatCV.Props.allocation_failure: none
FlatCV.Props.success_leaves_result: none
FlatCV.Props.rotate_op_turns: Classical.choice, Quot.sound, propext
FlatCV.Props.rotate_op_refuses: Classical.choice, Quot.sound, propext
FlatCV.Props.turned_dims: Quot.sound, propext
FlatCV.Props.rotate_fraction: Classical.choice, Quot.sound, propext
FlatCV.Props.crop_op_gives: Classical.choice, Quot.sound, propext
FlatCV.Props.crop_op_refuses: Classical.choice, Quot.sound, propext
FlatCV.Props.execute_pipeline_leaves_partial: Classical.choice, Quot.sound, propext
FlatCV.Props.execute_pipeline_tidy: Classical.choice, Quot.sound, propext
FlatCV.Props.execute_pipeline_empty: Quot.sound, propext
FlatCV.Props.detect_op_leaks: Classical.choice, Quot.sound, propext
FlatCV.Props.main_releases_partial: Classical.choice, Quot.sound, propext
FlatCV.Props.main_releases_all: Classical.choice, Quot.sound, propext
FlatCV.Props.apply_operation_proper: Classical.choice, Quot.sound, propext
FlatCV.Props.execute_pipeline_proper_partial: Classical.choice, Quot.sound, propext
FlatCV.Props.asks_fulfilled: Classical.choice, Quot.sound, propext
FlatCV.Props.pipeline_leads: Classical.choice, Quot.sound, propext
FlatCV.Props.main_leads: Classical.choice, Quot.sound, propext
FlatCV.Props.not_resizeToExact: Classical.choice, Quot.sound, propext
FlatCV.Props.resize_to_partial: Classical.choice, Quot.sound, propext
FlatCV.Props.vectors_readable: Classical.choice, Quot.sound, propext
FlatCV.Props.crop_readable: Classical.choice, Quot.sound, propext
FlatCV.Props.sized_readable: Classical.choice, Quot.sound, propext
FlatCV.Props.apply_matrix_readable: Classical.choice, Quot.sound, propext
FlatCV.Props.extract_readable: Classical.choice, Quot.sound, propext
FlatCV.Props.not_vectorsReadable: Classical.choice, Quot.sound, propext
FlatCV.Props.morphology_exposes: Classical.choice, Quot.sound, propext
FlatCV.Props.convert_to_binary_exposes: Classical.choice, Quot.sound, propext
FlatCV.Props.sobel_exposes: Classical.choice, Quot.sound, propext
FlatCV.Props.foerstner_exposes: Classical.choice, Quot.sound, propext
FlatCV.Props.bindings_exact: Classical.choice, Quot.sound, propext
FlatCV.Props.binding_single_to_multichannel: Classical.choice, Quot.sound, propext
FlatCV.Props.bindings_thresholds: Classical.choice, Quot.sound, propext
FlatCV.Props.binding_crop: Classical.choice, Quot.sound, propext
FlatCV.Props.bindings_trim: Classical.choice, Quot.sound, propext
FlatCV.Props.binding_border: Classical.choice, Quot.sound, propext
FlatCV.Props.bindings_draw: Classical.choice, Quot.sound, propext
FlatCV.Props.binding_watershed: Classical.choice, Quot.sound, propext
FlatCV.Props.binding_histogram: Classical.choice, Quot.sound, propext
FlatCV.Props.binding_resize: Classical.choice, Quot.sound, propext
FlatCV.Props.binding_global_threshold: Quot.sound, propext
FlatCV.Props.binding_sobel_gray: Classical.choice, Quot.sound, propext
FlatCV.Props.bindings_managed: Classical.choice, Quot.sound, propext
FlatCV.Props.bindings_managed_sized: Classical.choice, Quot.sound, propext
FlatCV.Props.bindings_document_tidy_partial: Classical.choice, Quot.sound, propext
FlatCV.Props.binding_watershed_tidy_partial: Classical.choice, Quot.sound, propext
FlatCV.Props.binding_watershed_leaks: Classical.choice, Quot.sound, propext
FlatCV.Props.binding_perspective_partial: Classical.choice, Quot.sound, propext
FlatCV.Props.binding_perspective_bad_free: Classical.choice, Quot.sound, propext
FlatCV.Props.binding_perspective_degenerate: Classical.choice, Quot.sound, propext
FlatCV.Props.corners_marshalled: propext
FlatCV.Props.matrix_marshalled: propext
FlatCV.Props.points_marshalled: Classical.choice, Quot.sound, propext
FlatCV.Props.document_size: Classical.choice, Quot.sound, propext
FlatCV.Props.extract_document_auto_warps: Classical.choice, Quot.sound, propext
FlatCV.Props.rounded_length_unique: Classical.choice, Quot.sound, propext
FlatCV.Props.extract_document_warps: Classical.choice, Quot.sound, propext
FlatCV.Props.extract_document_fails: Classical.choice, Quot.sound, propext
FlatCV.Props.warpDocument_extracts: Classical.choice, Quot.sound, propext
FlatCV.Props.transform_unique: Classical.choice, Quot.sound, propext
FlatCV.Props.document_area: Classical.choice, Quot.sound, propext
FlatCV.Props.png_round_trip: Classical.choice, Quot.sound, propext
FlatCV.Props.png_injective: Classical.choice, Quot.sound, propext
FlatCV.Props.png_not_writable: Classical.choice, Quot.sound, propext
FlatCV.Props.png_long_rows_overflow: Classical.choice, Quot.sound, propext
FlatCV.Props.png_overflow_example: Classical.choice, Quot.sound, propext
FlatCV.Props.png_long_rows_fit: Classical.choice, Quot.sound, propext
FlatCV.Props.png_early_failure: Classical.choice, Quot.sound, propext
FlatCV.Props.png_fourth_failure: Classical.choice, Quot.sound, propext
FlatCV.Props.png_last_failure_leaks: Classical.choice, Quot.sound, propext
FlatCV.Props.png_failure_may_leak: Classical.choice, Quot.sound, propext
FlatCV.Props.main_png_file: Classical.choice, Quot.sound, propext
FlatCV.Props.inflate_safe: Classical.choice, Quot.sound, propext
FlatCV.Props.inflate_initialised: Classical.choice, Quot.sound, propext
FlatCV.Props.inflate_complete: Classical.choice, Quot.sound, propext
FlatCV.Props.inflate_of_compress: Classical.choice, Quot.sound, propext
FlatCV.Props.inflate_sound: Classical.choice, Quot.sound, propext
FlatCV.Props.inflate_ignores_checksum: Classical.choice, Quot.sound, propext
FlatCV.Props.load_png_outcome_partial: Classical.choice, Quot.sound, propext
FlatCV.Props.load_png_safe: Classical.choice, Quot.sound, propext
FlatCV.Props.load_png_too_large: Classical.choice, Quot.sound, propext
FlatCV.Props.load_png_uninit_palette: Classical.choice, Quot.sound, propext
FlatCV.Props.load_png_grey16_overflow: Classical.choice, Quot.sound, propext
FlatCV.Props.load_png_correct: Classical.choice, Quot.sound, propext
FlatCV.Props.png_write_load: Classical.choice, Quot.sound, propext
FlatCV.Props.png_write_load_rgba: Classical.choice, Quot.sound, propext
FlatCV.Props.png_write_load_tall: Classical.choice, Quot.sound, propext
FlatCV.Props.main_png_to_png: Classical.choice, Quot.sound, propext
FlatCV.Props.opens_png: Classical.choice, Quot.sound, propext
FlatCV.Props.jpeg_shift_overflows: Classical.choice, Quot.sound, propext
FlatCV.Props.jpeg_file: Classical.choice, Quot.sound, propext
FlatCV.Props.jpeg_recon: Classical.choice, Quot.sound, propext
FlatCV.Props.jpeg_side_lost: Classical.choice, Quot.sound, propext
FlatCV.Props.main_jpeg_file: Classical.choice, Quot.sound, propext
FlatCV.Props.jpeg_idct: Classical.choice, Quot.sound, propext
FlatCV.Props.jpeg_constants: Classical.choice, Quot.sound, propext
FlatCV.Props.jpeg_idct_overflows: propext
FlatCV.Props.jpeg_colours: Classical.choice, Quot.sound, propext
FlatCV.Props.jpeg_red_near: Classical.choice, Quot.sound, propext
FlatCV.Props.jpeg_green_near: Classical.choice, Quot.sound, propext
FlatCV.Props.jpeg_blue_near: Classical.choice, Quot.sound, propext
FlatCV.Props.jpeg_enlarge_both: Classical.choice, Quot.sound, propext
FlatCV.Props.jpeg_enlarge_rows: Classical.choice, Quot.sound, propext
FlatCV.Props.jpeg_enlarge_columns_partial: Classical.choice, Quot.sound, propext
FlatCV.Props.jpeg_enlarge_columns_wrong: Classical.choice, Quot.sound, propext
FlatCV.Props.jpeg_load: Classical.choice, Quot.sound, propext
FlatCV.Props.jpeg_grey: Classical.choice, Quot.sound, propext
FlatCV.Props.jpeg_one_grey: Classical.choice, Quot.sound, propext
FlatCV.Props.jpeg_one_colour: Classical.choice, Quot.sound, propext
FlatCV.Props.main_jpeg_again: Classical.choice, Quot.sound, propext
FlatCV.Props.opens_jpeg: Classical.choice, Quot.sound, propext
FlatCV.Props.jpeg_any_file: Classical.choice, Quot.sound, propext
FlatCV.Props.jpeg_no_scan_uninit: Quot.sound, propext
FlatCV.Props.jpeg_large_coefs_overflow: Quot.sound, propext
FlatCV.Props.jpeg_full_table_assert: Quot.sound, propext
FlatCV.Props.fullTableFile_full: propext
FlatCV.Props.jpeg_any_file_progressive: Classical.choice, Quot.sound, propext
FlatCV.Props.jpeg_prog_cut_uninit: Quot.sound, propext
FlatCV.Props.jpeg_prog_no_scan_uninit: Quot.sound, propext
FlatCV.Props.band_scan: Classical.choice, Quot.sound, propext
FlatCV.Props.table_from_file: Classical.choice, Quot.sound, propext
FlatCV.Props.first_scan_block: Classical.choice, Quot.sound, propext
FlatCV.Props.first_scan_run: Quot.sound, propext
FlatCV.Props.refining_scan_block: Classical.choice, Quot.sound, propext
FlatCV.Props.refining_scan_run: Classical.choice, Quot.sound, propext
FlatCV.Props.last_scan: Quot.sound, propext
FlatCV.Props.finish_samples: Classical.choice, Quot.sound, propext
FlatCV.Props.dc_scan_interleaved: Classical.choice, Quot.sound, propext
FlatCV.Props.dc_scan_one: Classical.choice, Quot.sound, propext
FlatCV.Props.first_scan_dc: Classical.choice, Quot.sound, propext
FlatCV.Props.refining_scan_dc: Classical.choice, Quot.sound, propext
FlatCV.Props.load_pnm_exact: Classical.choice, Quot.sound, propext
FlatCV.Props.load_pnm_levels_partial: Classical.choice, Quot.sound, propext
FlatCV.Props.load_pnm_dark: Classical.choice, Quot.sound, propext
FlatCV.Props.load_pnm_low_bytes: Classical.choice, Quot.sound, propext
FlatCV.Props.pnm_any_file_partial: Classical.choice, Quot.sound, propext
FlatCV.Props.pnm_grey16_overflow: Classical.choice, Quot.sound, propext
FlatCV.Props.pnm_bad_maximum: Quot.sound, propext
FlatCV.Props.main_pnm_to_png: Classical.choice, Quot.sound, propext
FlatCV.Props.unknown_refused: Quot.sound, propext
FlatCV.Props.text_refused: Quot.sound, propext
FlatCV.Props.empty_refused: Quot.sound, propext
FlatCV.Props.png_recognised: Quot.sound, propext
FlatCV.Props.jpeg_recognised: Classical.choice, Quot.sound, propext
FlatCV.Props.pnm_recognised: Classical.choice, Quot.sound, propext
FlatCV.Props.all_png: Classical.choice, Quot.sound, propext
FlatCV.Props.all_jpeg: Classical.choice, Quot.sound, propext
FlatCV.Props.all_pnm: Classical.choice, Quot.sound, propext
FlatCV.Props.main_refused: Classical.choice, Quot.sound, propext
FlatCV.Props.main_text_refused: Classical.choice, Quot.sound, propext
FlatCV.Props.main_empty_refused: Classical.choice, Quot.sound, propext
FlatCV.Props.any_file_outcome: Classical.choice, Quot.sound, propext
FlatCV.Props.main_png_to_jpeg: Classical.choice, Quot.sound, propext
FlatCV.Props.main_pnm_to_jpeg: Classical.choice, Quot.sound, propext
FlatCV.Props.decodes_all_png: Classical.choice, Quot.sound, propext
FlatCV.Props.decodes_all_pnm: Classical.choice, Quot.sound, propext
