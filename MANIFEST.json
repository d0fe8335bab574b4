{
 "claims": [
  {
   "property": "C01",
   "status": "proved",
   "theorems": [
    "Verif.Date.c01_doy_roundtrip",
    "Verif.Date.c01_md_roundtrip",
    "Verif.Date.c01_week_quarter"
   ],
   "note": "Proved for all days and all valid month/day pairs; also weeks and quarters."
  },
  {
   "property": "C02",
   "status": "proved",
   "theorems": [
    "Verif.Date.c02_date_ce_date",
    "Verif.Date.c02_ce_date_ce",
    "Verif.Date.c02_double_floor_exact"
   ],
   "note": "Proved for all years; ce_fits_int32 bounds the range where int does not overflow."
  },
  {
   "property": "C03",
   "status": "proved",
   "theorems": [
    "Verif.Date.c03_ce_chronological",
    "Verif.Date.c03_ce_injective",
    "Verif.Date.c03_leap_day_collision",
    "Verif.Date.c03_date_order"
   ],
   "note": "Proved for all valid dates of the 365-day calendar. c03_leap_day_collision records the limit: 29 February shares the number of 1 March."
  },
  {
   "property": "C04",
   "status": "partial",
   "theorems": [
    "Verif.Date.c04_setters_consistent",
    "Verif.Date.c04_from_any_record",
    "Verif.Date.c04_date_step_violated",
    "Verif.Date.c04_date_step_partial"
   ],
   "note": "All setters of date-cl.c proved; the day-stepping functions date_plus/date_minus break consistency (quarter), shown by c04_date_step_violated."
  },
  {
   "property": "C05",
   "status": "partial",
   "theorems": [
    "Verif.Date.c05_valid_dates_accepted",
    "Verif.Date.c05_accepted_in_range",
    "Verif.Date.c05_dummy_date_violated",
    "Verif.Date.c05_invalid_day_accepted_violated",
    "Verif.Date.c05_non_number_accepted_violated",
    "Verif.Date.c05_no_word_ub_violated",
    "Verif.Date.c05_rejected_partial"
   ],
   "note": "Acceptance proved; the converse is false in the code: see the _violated theorems (record untouched on range failure, 31 February accepted, non-numbers accepted, null dereference without a word)."
  },
  {
   "property": "C06",
   "status": "partial",
   "theorems": [
    "Verif.Date.c06_seconds_partial",
    "Verif.Date.c06_seconds_violated",
    "Verif.Date.c06_seconds_year_unit"
   ],
   "note": "False in the code from 30 years on (year unit is 30 years); proved below and with the corrected unit."
  },
  {
   "property": "C07",
   "status": "proved",
   "theorems": [
    "Verif.Qai.c07_get_documented_bits",
    "Verif.Qai.c07_get_set",
    "Verif.Qai.c07_set_comm",
    "Verif.Qai.c07_write_history",
    "Verif.Qai.c07_unmasked_value_spills"
   ],
   "note": "Proved for all values, flags and write histories. c07_unmasked_value_spills records that the setters do not mask their argument."
  },
  {
   "property": "C08",
   "status": "partial",
   "theorems": [
    "Verif.Qai.c08_most_restrictive_partial",
    "Verif.Qai.c08_semilattice",
    "Verif.Qai.c08_illumination_violated"
   ],
   "note": "Order independence, idempotence and associativity proved. 'Most restrictive' is false for the illumination state in the code (c08_illumination_violated); proved for all other flags."
  },
  {
   "property": "C09",
   "status": "proved",
   "theorems": [
    "Verif.Qai.c09_screening",
    "Verif.Qai.c09_every_name_has_condition",
    "Verif.Qai.c09_monotone",
    "Verif.Qai.c09_schedule_independent"
   ],
   "note": "Proved for all selections, masks, values and schedules."
  },
  {
   "property": "C10",
   "status": "proved",
   "theorems": [
    "Verif.Noise.c10_terminates",
    "Verif.Noise.c10_history",
    "Verif.Noise.c10_restored",
    "Verif.Noise.c10_round",
    "Verif.Noise.c10_removed"
   ],
   "note": "Arithmetic is abstract: only the IEEE facts in Spec.Ieee are used (0/0 compares false). c10_round, c10_removed and c10_restored say in addition which observations are removed and restored."
  },
  {
   "property": "C11",
   "status": "proved",
   "theorems": [
    "Verif.Queue.c11_bounded_fifo",
    "Verif.Queue.c11_in_bounds",
    "Verif.Queue.c11_limits"
   ],
   "note": "Proved by refinement to a bounded list for every sequence of calls; c11_limits shows the preconditions are needed."
  },
  {
   "property": "C12",
   "status": "proved",
   "theorems": [
    "Verif.Recon.c12_fill_level",
    "Verif.Recon.c12_in_bounds",
    "Verif.Recon.c12_terminates"
   ],
   "note": "For images up to 32768 x 32768 (16-bit queue coordinates). FAILURE is returned when the queue (nx*ny/2 entries) is full; the property is about successful calls. The caller cloud-ll.c:843 does not look at the return value."
  },
  {
   "property": "C13",
   "status": "proved",
   "theorems": [
    "Verif.Dist.c13_distance",
    "Verif.Dist.c13_empty",
    "Verif.Dist.c13_sqrt"
   ],
   "note": "Exact for all images whose squares fit in an int; c13_empty gives the value for an image without TRUE pixels; c13_sqrt justifies the integer square root in the model for any correctly rounded double sqrt."
  },
  {
   "property": "C14",
   "status": "partial",
   "theorems": [
    "Verif.Buffer.c14_schedule",
    "Verif.Buffer.c14_extent",
    "Verif.Buffer.c14_contains_partial",
    "Verif.Buffer.c14_border_violated",
    "Verif.Buffer.c14_no_radius"
   ],
   "note": "Proved: in bounds, terminates, schedule independent, extent, and the full disc for TRUE pixels at least r from the edges. Violated: TRUE pixels closer than r to an edge are dropped (c14_border_violated), because result starts empty and only interior pixels are drawn."
  },
  {
   "property": "C15",
   "status": "partial",
   "theorems": [
    "Verif.Buffer.c15_fills_partial",
    "Verif.Buffer.c15_reason_partial",
    "Verif.Buffer.c15_order_violated"
   ],
   "note": "The image is filtered in place, so that pixels already set count as neighbours: the result depends on the order (c15_order_violated). Proved for every order: only grows, contains all pixels with five TRUE input neighbours, and every pixel set has five TRUE neighbours in the result."
  },
  {
   "property": "C16",
   "status": "proved",
   "theorems": [
    "Verif.Tile.c16_tile_contains_point",
    "Verif.Tile.c16_interior",
    "Verif.Tile.c16_unique_tile",
    "Verif.Tile.c16_edge_convention",
    "Verif.Tile.c16_needs_positive_size"
   ],
   "note": "Proved for all origins, positive tile sizes and coordinates over exact arithmetic; tiles are closed rectangles. c16_edge_convention records which neighbour gets the points on tile edges."
  },
  {
   "property": "C17",
   "status": "partial",
   "theorems": [
    "Verif.Tile.c17_align_partial",
    "Verif.Tile.c17_off_grid_partial",
    "Verif.Tile.c17_on_grid_violated"
   ],
   "note": "At most one pixel to the upper left, on the grid: proved. 'Less than one pixel' is false in the code for corners already on the grid (c17_on_grid_violated), proved for the others."
  },
  {
   "property": "C18",
   "status": "proved",
   "theorems": [
    "Verif.Tile.c18_active_tiles",
    "Verif.Tile.c18_failure",
    "Verif.Tile.c18_in_bounds",
    "Verif.Tile.c18_no_list",
    "Verif.Tile.c18_readlist",
    "Verif.Tile.c18_bad_list",
    "Verif.Tile.c18_five_characters"
   ],
   "note": "Proved, including the reading of the allow-list file and array bounds. c18_five_characters records a limit of the file format."
  },
  {
   "property": "C19",
   "status": "partial",
   "theorems": [
    "Verif.Cube.c19_round_trip_partial",
    "Verif.Cube.c19_projection_cut_violated",
    "Verif.Cube.c19_precision_violated",
    "Verif.Cube.c19_rejected_partial",
    "Verif.Cube.c19_missing_tag_violated",
    "Verif.Cube.c19_blank_line_violated"
   ],
   "note": "Proved for one-word projections and six-decimal numbers; false otherwise (projection cut at a blank, precision loss, duplicate tag instead of a missing one, blank line)."
  },
  {
   "property": "C20",
   "status": "partial",
   "theorems": [
    "Verif.Cube.c20_mutual_exclusion_partial",
    "Verif.Cube.c20_existing_kept_partial",
    "Verif.Cube.c20_complete_text_partial",
    "Verif.Cube.c20_same_definition_partial",
    "Verif.Cube.c20_replaced_violated",
    "Verif.Cube.c20_lock_leak_violated"
   ],
   "note": "False in the code: existence is tested outside the lock (c20_replaced_violated), and the lock leaks if the file cannot be opened (c20_lock_leak_violated). Proved: mutual exclusion, files that exist beforehand are kept, no mixed files, identical definitions."
  },
  {
   "property": "C21",
   "status": "proved",
   "theorems": [
    "Verif.Pipeline.c21_terminates",
    "Verif.Pipeline.c21_exactly_once",
    "Verif.Pipeline.c21_in_bounds",
    "Verif.Pipeline.c21_ascending"
   ],
   "note": "Proved for every number of units."
  },
  {
   "property": "C22",
   "status": "proved",
   "theorems": [
    "Verif.Pipeline.c22_disjoint",
    "Verif.Pipeline.c22_stream_eq_sequential",
    "Verif.Pipeline.c22_output"
   ],
   "note": "Proved for every interleaving of the atomic steps of the three threads."
  },
  {
   "property": "C23",
   "status": "partial",
   "theorems": [
    "Verif.Pipeline.c23_unit_to_chunk_partial",
    "Verif.Pipeline.c23_bijective_partial",
    "Verif.Pipeline.c23_float_violated"
   ],
   "note": "Proved for up to 2^24 units, with single precision rounding modelled; false beyond (c23_float_violated)."
  },
  {
   "property": "C24",
   "status": "partial",
   "theorems": [
    "Verif.Pipeline.c24_exit_code",
    "Verif.Pipeline.c24_stream_exit_partial",
    "Verif.Pipeline.c24_sequential_violated"
   ],
   "note": "Proved for streaming mode; false in sequential mode (c24_sequential_violated)."
  },
  {
   "property": "C25",
   "status": "partial",
   "theorems": [
    "Verif.Brick.c25_crop_partial",
    "Verif.Brick.c25_other_types_violated"
   ],
   "note": "Proved for 16-bit signed images; for the four other data types the code swaps the indices and writes outside of the new image for every radius of at least one pixel (c25_other_types_violated)."
  },
  {
   "property": "C26",
   "status": "partial",
   "theorems": [
    "Verif.Brick.c26_chunks_assembled_partial",
    "Verif.Brick.c26_complete_tile_partial",
    "Verif.Brick.c26_stale_violated",
    "Verif.Brick.c26_invalid_chunk"
   ],
   "note": "Proved for all layouts, orders and previous files if chunk (0,0) is written first. If it is skipped, stale content survives (c26_stale_violated)."
  },
  {
   "property": "C27",
   "status": "partial",
   "theorems": [
    "Verif.Brick.c27_one_valid",
    "Verif.Brick.c27_update_history",
    "Verif.Brick.c27_merge_average",
    "Verif.Brick.c27_merge_valid_partial",
    "Verif.Brick.c27_merge_lost_violated",
    "Verif.Brick.c27_qai_merge"
   ],
   "note": "Update: proved for every history. Merge: average proved; validity proved for values not below nodata, false otherwise (c27_merge_lost_violated). QAI merge: proved."
  },
  {
   "property": "C28",
   "status": "partial",
   "theorems": [
    "Verif.Brick.c28_no_lock_left_partial",
    "Verif.Brick.c28_early_failure_partial",
    "Verif.Brick.c28_lock_leak_violated"
   ],
   "note": "Success leaves no lock, failure leaves at most one; failures while a file is locked leak the lock (c28_lock_leak_violated)."
  },
  {
   "property": "C29",
   "status": "proved",
   "theorems": [
    "Verif.Str.c29_copy",
    "Verif.Str.c29_copy_defined",
    "Verif.Str.c29_concat2",
    "Verif.Str.c29_concat3",
    "Verif.Str.c29_fill_string",
    "Verif.Str.c29_overwrite"
   ],
   "note": "copy, concat (2, 3), overwrite and fill_string proved to store the complete text or to end the program, never touching memory outside the buffer."
  },
  {
   "property": "C30",
   "status": "partial",
   "theorems": [
    "Verif.Str.c30_replace_partial",
    "Verif.Str.c30_long_pattern_violated",
    "Verif.Str.c30_no_overflow"
   ],
   "note": "Proved for search texts not longer than the room left; for longer ones size_t wraps around and the program ends although the result would fit (c30_long_pattern_violated)."
  },
  {
   "property": "C31",
   "status": "proved",
   "theorems": [
    "Verif.Str.c31_fill",
    "Verif.Str.c31_history",
    "Verif.Str.c31_empty_first",
    "Verif.Str.c31_contains"
   ],
   "note": "Proved for every fill sequence; limit: an empty text as very first fill ends the program (c31_empty_first)."
  },
  {
   "property": "C32",
   "status": "partial",
   "theorems": [
    "Verif.Str.c32_realloc",
    "Verif.Str.c32_zero",
    "Verif.Str.c32_realloc2D",
    "Verif.Str.c32_realloc3D",
    "Verif.Str.c32_realloc2DC_partial",
    "Verif.Str.c32_contiguous_violated"
   ],
   "note": "1-, 2-, 3-D proved; contiguous 2-D only with unchanged row length (c32_contiguous_violated)."
  },
  {
   "property": "C33",
   "status": "partial",
   "theorems": [
    "Verif.Str.c33_basename",
    "Verif.Str.c33_extension",
    "Verif.Str.c33_extension2",
    "Verif.Str.c33_dirname_partial",
    "Verif.Str.c33_dirname_cwd",
    "Verif.Str.c33_dirname_violated",
    "Verif.Str.c33_no_name"
   ],
   "note": "Base name and extensions proved with trailing slashes; directoryname does not ignore a trailing slash (c33_dirname_violated)."
  },
  {
   "property": "C34",
   "status": "proved",
   "theorems": [
    "Verif.Param.c34_parse",
    "Verif.Param.c34_readable",
    "Verif.Param.c34_irrelevant",
    "Verif.Param.c34_values",
    "Verif.Param.c34_prescreen"
   ],
   "note": "Proved for every file with lines below 65535 characters and every registry in which repeated names are vectors (as in the code)."
  },
  {
   "property": "C35",
   "status": "partial",
   "theorems": [
    "Verif.Param.c35_check_partial",
    "Verif.Param.c35_nan_violated",
    "Verif.Param.c35_enum"
   ],
   "note": "Equivalence proved except for NaN, which the range check accepts (c35_nan_violated)."
  },
  {
   "property": "C36",
   "status": "proved",
   "theorems": [
    "Verif.Stats.c36_variance",
    "Verif.Stats.c36_covariance",
    "Verif.Stats.c36_covariance_full",
    "Verif.Stats.c36_skewness_sums",
    "Verif.Stats.c36_kurtosis_sums",
    "Verif.Stats.c36_order",
    "Verif.Stats.c36_first",
    "Verif.Stats.c36_estimates",
    "Verif.Stats.c36_kurtosis",
    "Verif.Stats.c36_skewness"
   ],
   "note": "Proved in exact arithmetic for all sample sequences."
  },
  {
   "property": "C37",
   "status": "partial",
   "theorems": [
    "Verif.Stats.c37_mode_partial",
    "Verif.Stats.c37_unique_partial",
    "Verif.Stats.c37_histogram_partial",
    "Verif.Stats.c37_overflow_violated"
   ],
   "note": "Proved if no difference of two samples overflows int; otherwise the comparison function is undefined (c37_overflow_violated)."
  },
  {
   "property": "C38",
   "status": "partial",
   "theorems": [
    "Verif.Interp.c38_neighbours",
    "Verif.Interp.c38_between_partial",
    "Verif.Interp.c38_long_gap_violated",
    "Verif.Interp.c38_none"
   ],
   "note": "Neighbour search with the carried index proved equal to the stateless specification for all sorted series. Between-ness proved for value*gap < 2^24 (partial: float rounding); for a gap of 1150 days every rounding to nearest leaves the interval (c38_long_gap_violated)."
  },
  {
   "property": "C39",
   "status": "proved",
   "theorems": [
    "Verif.Interp.c39_moving"
   ],
   "note": "Full window equality for all sorted series, widths and dates; the mean is exact because sums and counts are integers within double precision."
  },
  {
   "property": "C40",
   "status": "partial",
   "theorems": [
    "Verif.Interp.c40_rbf_partial",
    "Verif.Interp.c40_range",
    "Verif.Interp.c40_cutoff_violated"
   ],
   "note": "Windows and table bounds proved for all sorted series; a cut-off leaving a kernel without weight divides by zero (c40_cutoff_violated)."
  },
  {
   "property": "C41",
   "status": "partial",
   "theorems": [
    "Verif.Fold.c41_fold_partial",
    "Verif.Fold.c41_nodata",
    "Verif.Fold.c41_average_partial",
    "Verif.Fold.c41_average_violated",
    "Verif.Fold.c41_range_violated",
    "Verif.Fold.c41_std_single_violated",
    "Verif.Fold.c41_constant_violated",
    "Verif.Fold.c41_periods",
    "Verif.Fold.c41_one_period"
   ],
   "note": "Selection by period, nodata handling and layer labels proved for all series and any arithmetic; values proved in exact arithmetic when they exist and fit into 16 bits; the average also for any round-to-nearest double arithmetic (off by one towards zero for whole means: c41_average_violated). Range wraps, STD of one value and SKW/KRT of constant values are undefined (violations)."
  },
  {
   "property": "C42",
   "status": "partial",
   "theorems": [
    "Verif.Fold.c42_metrics_partial",
    "Verif.Fold.c42_average_partial",
    "Verif.Fold.c42_nodata",
    "Verif.Fold.c42_order_partial",
    "Verif.Fold.c42_order_violated",
    "Verif.Fold.c42_duplicate_violated",
    "Verif.Fold.c42_std_single_violated"
   ],
   "note": "Layer assignment, nodata handling proved; values in exact arithmetic; order independence fails for the truncated average in double arithmetic (c42_order_violated); a metric requested twice leaves the count in its first layer (c42_duplicate_violated)."
  },
  {
   "property": "C43",
   "status": "partial",
   "theorems": [
    "Verif.Cso.c43_count",
    "Verif.Cso.c43_boundaries",
    "Verif.Cso.c43_partition_partial",
    "Verif.Cso.c43_last_month_violated",
    "Verif.Cso.c43_assign",
    "Verif.Cso.c43_gaps_sum",
    "Verif.Cso.c43_pixel",
    "Verif.Cso.c43_std_one_violated",
    "Verif.Cso.c43_std_violated",
    "Verif.Cso.c43_skew_violated",
    "Verif.Cso.c43_quantile_violated",
    "Verif.Cso.c43_quantile_stale_violated"
   ],
   "note": "c43_count/c43_boundaries/c43_assign/c43_gaps_sum/c43_pixel: window enumeration terminates, boundaries are month starts, images are assigned to exactly the window of their date, gaps are positive and add up to the window length, NUM/MIN/MAX/RNG/AVG are those of the gaps (exact arithmetic). Violated: the last month of the period belongs to no window if the step divides the period (c43_last_month_violated); STD, SKW, KRT and quantiles use the number of observations instead of the number of gaps (c43_std_violated, c43_std_one_violated, c43_skew_violated, c43_quantile_violated), and quantiles can read values of other pixels (c43_quantile_stale_violated)."
  },
  {
   "property": "C44",
   "status": "partial",
   "theorems": [
    "Verif.L2queue.c44_suffix_violated",
    "Verif.L2queue.c44_plus_violated",
    "Verif.L2queue.c44_images",
    "Verif.L2queue.c44_serial",
    "Verif.L2queue.c44_status_partial",
    "Verif.L2queue.c44_give_up_violated"
   ],
   "note": "c44_status_partial: any interleaving of any number of workers, provided no path is a (pattern) suffix of another path, no '+' or blank or QUEUED in a path, and no worker gives up on the lock. The full property fails: c44_suffix_violated (path is the end of another path), c44_plus_violated, c44_give_up_violated (lockfile-create failure ignored, update lost). c44_images: the processed images are exactly those with status QUEUED. c44_serial: the parallel updates are equivalent to some sequential order."
  },
  {
   "property": "C45",
   "status": "partial",
   "theorems": [
    "Verif.Bap.c45_best",
    "Verif.Bap.c45_nodata",
    "Verif.Bap.c45_index_violated",
    "Verif.Bap.c45_pixel_partial",
    "Verif.Bap.c45_water_partial",
    "Verif.Bap.c45_water_violated",
    "Verif.Bap.c45_nan_violated"
   ],
   "note": "Selection picks an admissible observation with the best total score, first one wins ties (c45_best), nodata without admissible observation; with good parameters and targets all scores are in [0,1] and every index used is in range (c45_pixel_partial). Violated: if all admissible scores are ≤ -1 or NaN the index stays -1 and memory outside the array is read; water pixels with very bright SWIR2 reach this (c45_water_violated), degenerate DOY scores too (c45_nan_violated). Real-number arithmetic."
  },
  {
   "property": "C46",
   "status": "partial",
   "theorems": [
    "Verif.Sample.c46_projected_violated",
    "Verif.Sample.c46_box_columns",
    "Verif.Sample.c46_geographic_violated",
    "Verif.Sample.c46_once_partial",
    "Verif.Sample.c46_edge_violated"
   ],
   "note": "c46_once_partial: exactly one row per sample, aligned tables, any chunk order, provided the coordinate box of the chunk contains its samples. The program's own box never does: c46_projected_violated (projected coordinates, always), c46_geographic_violated (latitude increasing with y), because get_brick_y runs north (C58). c46_edge_violated: samples on tile edges are lost whatever the box."
  },
  {
   "property": "C47",
   "status": "partial",
   "theorems": [
    "Verif.Brick.c47_contains_exact",
    "Verif.Brick.c47_conversion_partial",
    "Verif.Brick.c47_same_resolution_violated"
   ],
   "note": "Exact arithmetic: proved. Double precision: proved for resolutions that are multiples of a common power of two; false e.g. for 0.1 (c47_same_resolution_violated)."
  },
  {
   "property": "C48",
   "status": "partial",
   "theorems": [
    "Verif.Table.c48_regular",
    "Verif.Table.c48_read_partial",
    "Verif.Table.c48_header_violated",
    "Verif.Table.c48_blank_violated",
    "Verif.Table.c48_mean",
    "Verif.Table.c48_minmax_partial",
    "Verif.Table.c48_minmax_violated"
   ],
   "note": "Regularity of the rows, reading of well-formed tables, mean/sum/variance are proved. Violated: the number of names is overwritten by the number of cells of the first row (c48_header_violated); an empty first line turns the header into a row of zeros (c48_blank_violated); minimum and maximum start at 32767 and -32768 (c48_minmax_violated)."
  },
  {
   "property": "C49",
   "status": "partial",
   "theorems": [
    "Verif.Str.c49_decimal_partial",
    "Verif.Str.c49_garbage",
    "Verif.Str.c49_leading_zero_violated"
   ],
   "note": "Proved without leading zeros; a leading zero switches to octal (c49_leading_zero_violated)."
  },
  {
   "property": "C50",
   "status": "partial",
   "theorems": [
    "Verif.Season.c50_days_partial",
    "Verif.Season.c50_single_day_violated",
    "Verif.Season.c50_periods",
    "Verif.Season.c50_counts",
    "Verif.Season.c50_labels",
    "Verif.Season.c50_images"
   ],
   "note": "Proved for ranges of more than one day; a range of one day selects the whole year (c50_single_day_violated)."
  },
  {
   "property": "C51",
   "status": "proved",
   "theorems": [
    "Verif.Stats.c51_least_squares",
    "Verif.Stats.c51_rsquared",
    "Verif.Stats.c51_residuals"
   ],
   "note": "Proved in exact arithmetic; samples with identical x are excluded (division by zero)."
  },
  {
   "property": "C52",
   "status": "partial",
   "theorems": [
    "Verif.Noise.c52_residual_partial",
    "Verif.Noise.c52_slope_violated"
   ],
   "note": "The slope is an integer division of shorts: exact only if the difference is a multiple of the number of days; for differences smaller than that the slope is always 0 (c52_slope_violated)."
  },
  {
   "property": "C53",
   "status": "partial",
   "theorems": [
    "Verif.Bap.c53_independent_partial",
    "Verif.Bap.c53_schedule_partial",
    "Verif.Bap.c53_stale_violated"
   ],
   "note": "Independence is proved for targets after 1900 (c53_independent_partial, c53_schedule_partial over any processing history); violated for corrupt targets (possible with adaptive targets), where scores of an earlier pixel are used (c53_stale_violated)."
  },
  {
   "property": "C54",
   "status": "partial",
   "theorems": [
    "Verif.Bap.c54_dates",
    "Verif.Bap.c54_values_partial",
    "Verif.Bap.c54_monotone",
    "Verif.Bap.c54_degenerate_violated"
   ],
   "note": "c54_dates: target dates, incl. turn of the year. c54_values_partial/c54_monotone for the Gaussian shape; the sigmoid parameters come from the GSL library and are a parameter. c54_degenerate_violated: two equal target days give 0/0."
  },
  {
   "property": "C55",
   "status": "partial",
   "theorems": [
    "Verif.Bap.c55_mean_partial",
    "Verif.Bap.c55_nodata_partial",
    "Verif.Bap.c55_null_violated"
   ],
   "note": "c55_mean_partial, c55_nodata_partial: exact weighted mean and bounds if the reflectance product is requested; c55_null_violated: otherwise a null pointer is written."
  },
  {
   "property": "C56",
   "status": "proved",
   "theorems": [
    "Verif.Bap.c56_range",
    "Verif.Bap.c56_symmetric",
    "Verif.Bap.c56_mean",
    "Verif.Bap.c56_pixel"
   ],
   "note": "Exact arithmetic over ℝ; Cauchy–Schwarz by induction over the bands."
  },
  {
   "property": "C57",
   "status": "partial",
   "theorems": [
    "Verif.Bap.c57_weights",
    "Verif.Bap.c57_shape_partial",
    "Verif.Bap.c57_shape_violated"
   ],
   "note": "c57_weights, c57_shape_partial; c57_shape_violated: equal outer scores without a peak leave the type unset."
  },
  {
   "property": "C58",
   "status": "partial",
   "theorems": [
    "Verif.Sample.c58_column",
    "Verif.Sample.c58_row_partial",
    "Verif.Sample.c58_row_violated",
    "Verif.Sample.c58_subset_column",
    "Verif.Sample.c58_subset_row_partial",
    "Verif.Sample.c58_subset_row_violated"
   ],
   "note": "Columns are right; rows only if i = 0. c58_row_violated: get_brick_y adds i*resolution instead of subtracting it, for every other row. c58_subset_row_violated: the active part of a Sentinel-2 image is shifted north by twice the rows left out."
  },
  {
   "property": "C59",
   "status": "partial",
   "theorems": [
    "Verif.Strat.c59_sizes_partial",
    "Verif.Strat.c59_exact_partial",
    "Verif.Strat.c59_centre",
    "Verif.Strat.c59_overflow_violated",
    "Verif.Strat.c59_unlisted_violated",
    "Verif.Strat.c59_duplicate_violated"
   ],
   "note": "Proved for tables with distinct classes, positive counts and random numbers, and if the pre-selected pixels fit into the sample table (c59_sizes_partial, c59_exact_partial). Otherwise: c59_overflow_violated, c59_unlisted_violated, c59_duplicate_violated."
  },
  {
   "property": "C60",
   "status": "partial",
   "theorems": [
    "Verif.Trend.c60_regression",
    "Verif.Trend.c60_nodata",
    "Verif.Trend.c60_constant_violated",
    "Verif.Trend.c60_percent_violated",
    "Verif.Trend.c60_defined_partial",
    "Verif.Trend.c60_days_partial",
    "Verif.Trend.c60_days_mean_violated",
    "Verif.Trend.c60_days_gain_violated"
   ],
   "note": "Violated for constant series (R2 is 0/0), for gains beyond 16 bits, and for values in continuous days (mean with gaps, gain is 1000 times the days)."
  },
  {
   "property": "C61",
   "status": "partial",
   "theorems": [
    "Verif.Trend.c61_change_partial",
    "Verif.Trend.c61_penalty_violated",
    "Verif.Trend.c61_parts_violated",
    "Verif.Trend.c61_segment_partial",
    "Verif.Trend.c61_total_partial",
    "Verif.Trend.c61_days_violated",
    "Verif.Trend.c61_loss"
   ],
   "note": "Violated with penalty (penalised and plain sizes are compared), the layer before the change is in neither part, and continuous days are not converted in the mean."
  },
  {
   "property": "C62",
   "status": "partial",
   "theorems": [
    "Verif.Trend.c62_center",
    "Verif.Trend.c62_normal_partial",
    "Verif.Trend.c62_unchanged",
    "Verif.Trend.c62_constant_violated",
    "Verif.Trend.c62_nodata_violated"
   ],
   "note": "Violated for constant series (0/0), and valid values may become nodata."
  },
  {
   "property": "C63",
   "status": "proved",
   "theorems": [
    "Verif.Polar.c63_values",
    "Verif.Polar.c63_nodata"
   ],
   "note": ""
  },
  {
   "property": "C64",
   "status": "partial",
   "theorems": [
    "Verif.Polar.c64_dates_partial",
    "Verif.Polar.c64_days_violated"
   ],
   "note": "Violated for seven days of the year (lost in single precision)."
  },
  {
   "property": "C65",
   "status": "partial",
   "theorems": [
    "Verif.Polar.c65_seasons_partial",
    "Verif.Polar.c65_late_start_violated",
    "Verif.Polar.c65_years"
   ],
   "note": "Violated if the series begins later in the year than the phenological year: no season is found."
  },
  {
   "property": "C66",
   "status": "partial",
   "theorems": [
    "Verif.Polar.c66_events",
    "Verif.Polar.c66_order",
    "Verif.Polar.c66_peak_partial",
    "Verif.Polar.c66_peak_violated",
    "Verif.Polar.c66_empty_violated",
    "Verif.Polar.c66_pixel"
   ],
   "note": "Violated for seasons that pass start and end in one step (peak is 0) and for seasons without values (0, not nodata). The averaged vectors and the adaptive start are not modelled."
  },
  {
   "property": "C67",
   "status": "partial",
   "theorems": [
    "Verif.Polar.c67_integrals",
    "Verif.Polar.c67_green",
    "Verif.Polar.c67_rates_partial",
    "Verif.Polar.c67_rates_violated",
    "Verif.Polar.c67_shift_violated",
    "Verif.Polar.c67_overflow_violated"
   ],
   "note": "Violated: mean rates are 0/0 for growing seasons without steps before or after the middle, the shift is not 0 without adaptation, rising and falling integrals may exceed 16 bits."
  },
  {
   "property": "C68",
   "status": "proved",
   "theorems": [
    "Verif.Sensor.c68_bands",
    "Verif.Sensor.c68_numbers",
    "Verif.Sensor.c68_target",
    "Verif.Sensor.c68_accept"
   ],
   "note": ""
  },
  {
   "property": "C69",
   "status": "partial",
   "theorems": [
    "Verif.Sensor.c69_safe_partial",
    "Verif.Sensor.c69_adjust_violated",
    "Verif.Sensor.c69_lowres_violated",
    "Verif.Sensor.c69_union"
   ],
   "note": "Violated with SPECTRAL_ADJUST (arrays too short by one) and for the low-resolution sensors of the Level 2 ImproPhe (no target sensor)."
  },
  {
   "property": "C70",
   "status": "proved",
   "theorems": [
    "Verif.Sensor.c70_needed",
    "Verif.Sensor.c70_numbers",
    "Verif.Sensor.c70_accept"
   ],
   "note": ""
  },
  {
   "property": "C71",
   "status": "partial",
   "theorems": [
    "Verif.Sensor.c71_bands_partial",
    "Verif.Sensor.c71_ndvire1n_violated",
    "Verif.Sensor.c71_read",
    "Verif.Sensor.c71_read_missing",
    "Verif.Sensor.c71_documented",
    "Verif.Sensor.c71_count",
    "Verif.Sensor.c71_disc_partial"
   ],
   "note": "Violated for NDVIre1n (implemented as NDVIren). Proved for all other shipped indices except the unmixing, which uses all bands."
  },
  {
   "property": "C72",
   "status": "proved",
   "theorems": [
    "Verif.Index.c72_value",
    "Verif.Index.c72_order",
    "Verif.Index.c72_swap",
    "Verif.Index.c72_proportion",
    "Verif.Index.c72_not_missing"
   ],
   "note": ""
  },
  {
   "property": "C73",
   "status": "partial",
   "theorems": [
    "Verif.Index.c73_value_partial",
    "Verif.Index.c73_overflow_violated",
    "Verif.Index.c73_evi_violated",
    "Verif.Index.c73_bounded"
   ],
   "note": "Violated: results that do not fit into 16 bit are converted without a check; proved for all results that fit."
  },
  {
   "property": "C74",
   "status": "partial",
   "theorems": [
    "Verif.Index.c74_tasseled_partial",
    "Verif.Index.c74_overflow_violated",
    "Verif.Index.c74_bounded",
    "Verif.Index.c74_continuum",
    "Verif.Index.c74_continuum_reflectance"
   ],
   "note": "Violated: results that do not fit into 16 bit are converted without a check; proved for all results that fit, and for all reflectances in 0..10000 for the three components."
  },
  {
   "property": "C75",
   "status": "proved",
   "theorems": [
    "Verif.Index.c75_kndvi"
   ],
   "note": ""
  },
  {
   "property": "C76",
   "status": "partial",
   "theorems": [
    "Verif.Index.c76_cire",
    "Verif.Index.c76_nan_violated",
    "Verif.Index.c76_msr_partial",
    "Verif.Index.c76_msr_safe"
   ],
   "note": "Violated: MSRre and MSRren convert the square root of a negative number for ratios below -1. Proved for non-negative reflectances; no undefined behaviour for ratios of at least -1."
  },
  {
   "property": "C77",
   "status": "partial",
   "theorems": [
    "Verif.Index.c77_series",
    "Verif.Index.c77_masked",
    "Verif.Index.c77_band",
    "Verif.Index.c77_collision_violated"
   ],
   "note": "Violated for the last part: an index value of -9999 is stored as missing."
  },
  {
   "property": "C78",
   "status": "proved",
   "theorems": [
    "Verif.Unmix.c78_terminates"
   ],
   "note": ""
  },
  {
   "property": "C79",
   "status": "partial",
   "theorems": [
    "Verif.Unmix.c79_best_partial",
    "Verif.Unmix.c79_step",
    "Verif.Unmix.c79_unconstrained",
    "Verif.Unmix.c79_mixture"
   ],
   "note": "Exact arithmetic, and only if the limit of 30 inner iterations per endmember is not reached."
  },
  {
   "property": "C80",
   "status": "partial",
   "theorems": [
    "Verif.Unmix.c80_sum_violated",
    "Verif.Unmix.c80_sum_partial"
   ],
   "note": "Violated: the constraint is a row with weight one in the least squares problem; fractions sum to one if and only if the constraint is not needed. A bound of the deviation is proved."
  },
  {
   "property": "C81",
   "status": "partial",
   "theorems": [
    "Verif.Unmix.c81_retain_partial",
    "Verif.Unmix.c81_endmember_violated",
    "Verif.Unmix.c81_shaded_violated",
    "Verif.Unmix.c81_overflow_violated",
    "Verif.Unmix.c81_normalized"
   ],
   "note": "Violated: endmember numbers are not checked against the file, shade fractions of one divide by zero, large fractions overflow."
  },
  {
   "property": "C82",
   "status": "partial",
   "theorems": [
    "Verif.Unmix.c82_dates",
    "Verif.Unmix.c82_rmse",
    "Verif.Unmix.c82_rmse_violated",
    "Verif.Unmix.c82_masked_violated"
   ],
   "note": "Violated: the RMSE is 0 outside the processing mask and includes the sum-to-one row."
  },
  {
   "property": "C83",
   "status": "partial",
   "theorems": [
    "Verif.Halo.c83_seamless_partial",
    "Verif.Halo.c83_west_violated",
    "Verif.Halo.c83_plain"
   ],
   "note": "Violated for the western pixels if chunks are side by side: the offset of the chunk is dropped. Proved for all others, radius not larger than the chunk."
  },
  {
   "property": "C84",
   "status": "partial",
   "theorems": [
    "Verif.Halo.c84_rename",
    "Verif.Halo.c84_rename_violated"
   ],
   "note": "Violated if the tile name occurs in the path earlier: the first occurrence is replaced."
  },
  {
   "property": "C85",
   "status": "proved",
   "theorems": [
    "Verif.Ccl.c85_segments"
   ],
   "note": ""
  },
  {
   "property": "C86",
   "status": "partial",
   "theorems": [
    "Verif.Ccl.c86_objects_partial",
    "Verif.Ccl.c86_corner_violated"
   ],
   "note": "Violated for the upper left pixel, which is always removed."
  },
  {
   "property": "C87",
   "status": "partial",
   "theorems": [
    "Verif.Lsm.c87_pixels_partial",
    "Verif.Lsm.c87_allpx_violated"
   ],
   "note": "Violated when all pixels are requested and the chunk has no patch."
  },
  {
   "property": "C88",
   "status": "proved",
   "theorems": [
    "Verif.Lsm.c88_schedule"
   ],
   "note": ""
  },
  {
   "property": "C89",
   "status": "partial",
   "theorems": [
    "Verif.Lsm.c89_statistics_partial",
    "Verif.Lsm.c89_max_violated",
    "Verif.Lsm.c89_std_violated",
    "Verif.Lsm.c89_geo_violated"
   ],
   "note": "Violated for negative maxima (0 is stored), one value (STD is 0/0) and no positive value (GEO is exp(0/0))."
  },
  {
   "property": "C90",
   "status": "partial",
   "theorems": [
    "Verif.Lsm.c90_patches_partial",
    "Verif.Lsm.c90_ems_violated",
    "Verif.Lsm.c90_fdi_filled_violated",
    "Verif.Lsm.c90_fdi_single_violated",
    "Verif.Lsm.c90_unit_violated",
    "Verif.Lsm.c90_identifier_partial",
    "Verif.Lsm.c90_identifier_violated"
   ],
   "note": "Violated: EMS uses the total area, FDI is undefined for patches without edges and for single pixels, UCI wraps at 16 bits, and single pixels are not recognised with an 11 x 11 kernel in single precision."
  },
  {
   "property": "C91",
   "status": "proved",
   "theorems": [
    "Verif.Ml.c91_skipped",
    "Verif.Ml.c91_majority"
   ],
   "note": ""
  },
  {
   "property": "C92",
   "status": "partial",
   "theorems": [
    "Verif.Ml.c92_mean_partial",
    "Verif.Ml.c92_single_violated"
   ],
   "note": "Violated for sets with a single model: the uncertainty is 0/0."
  },
  {
   "property": "C93",
   "status": "partial",
   "theorems": [
    "Verif.Ml.c93_probability_partial",
    "Verif.Ml.c93_tie_violated",
    "Verif.Ml.c93_unanimous_violated",
    "Verif.Ml.c93_classes_violated",
    "Verif.Ml.c93_columns_violated"
   ],
   "note": "Violated: ties give a positive margin; rounding may make a whole number one smaller (9999 for unanimous votes of 3 trees); models of a set with different classes are mixed up or read out of bounds."
  },
  {
   "property": "C94",
   "status": "partial",
   "theorems": [
    "Verif.Lib.c94_skipped",
    "Verif.Lib.c94_distance_partial",
    "Verif.Lib.c94_far_violated",
    "Verif.Lib.c94_constant_violated"
   ],
   "note": "Violated for large distances (nodata) and features that are constant in the library (nodata everywhere)."
  },
  {
   "property": "C95",
   "status": "partial",
   "theorems": [
    "Verif.Ovv.c95_unmasked_partial",
    "Verif.Ovv.c95_masked_violated"
   ],
   "note": "Violated: masked pixels are 0, not nodata."
  },
  {
   "property": "C96",
   "status": "partial",
   "theorems": [
    "Verif.Ovv.c96_sampling",
    "Verif.Ovv.c96_optical",
    "Verif.Ovv.c96_radar_partial",
    "Verif.Ovv.c96_ratio_violated",
    "Verif.Ovv.c96_zero_violated",
    "Verif.Ovv.c96_chunks_violated"
   ],
   "note": "Violated: the ratio of radar composites is undefined for VH = 0 (masked pixels) and ratios above 1; rows are missing if the chunk height is not a multiple of the overview resolution."
  },
  {
   "property": "C97",
   "status": "partial",
   "theorems": [
    "Verif.Imp.c97_counted",
    "Verif.Imp.c97_average_partial",
    "Verif.Imp.c97_masked",
    "Verif.Imp.c97_seasons_violated"
   ],
   "note": "Violated for windows over the turn of the year with a requested year: two seasons are mixed."
  },
  {
   "property": "C98",
   "status": "proved",
   "theorems": [
    "Verif.Imp.c98_between",
    "Verif.Imp.c98_alone",
    "Verif.Imp.c98_nodata",
    "Verif.Imp.c98_weight"
   ],
   "note": ""
  },
  {
   "property": "C99",
   "status": "partial",
   "theorems": [
    "Verif.Imp.c99_level2_partial",
    "Verif.Imp.c99_mask_violated",
    "Verif.Imp.c99_band_violated"
   ],
   "note": "Violated: without fine resolution data masked pixels get data; a valid pixel with one nodata band is 0 in all bands."
  },
  {
   "property": "C100",
   "status": "partial",
   "theorems": [
    "Verif.Imp.c100_texture",
    "Verif.Imp.c100_standard_partial",
    "Verif.Imp.c100_constant_violated"
   ],
   "note": "Violated: constant images are divided by zero."
  },
  {
   "property": "C101",
   "status": "partial",
   "theorems": [
    "Verif.Imp.c101_fields_partial",
    "Verif.Imp.c101_mask_violated",
    "Verif.Imp.c101_feature_violated",
    "Verif.Imp.c101_years_violated",
    "Verif.Imp.c101_rejected",
    "Verif.Imp.c101_before_violated"
   ],
   "note": "Violated: masked pixels are 0; pixels with an invalid first feature are 0; years after a year without target data are 0; years before the first year read out of bounds."
  },
  {
   "property": "C102",
   "status": "partial",
   "theorems": [
    "Verif.Pca.c102_components_partial",
    "Verif.Pca.c102_distance",
    "Verif.Pca.c102_nodata",
    "Verif.Pca.c102_number",
    "Verif.Pca.c102_all",
    "Verif.Pca.c102_bands",
    "Verif.Pca.c102_transposed_violated",
    "Verif.Pca.c102_mean_violated"
   ],
   "note": "Violated: the data are multiplied with the transposed matrix of eigenvectors, components are correlated and not ordered by variance; incomplete pixels contribute to the mean. Proved for symmetric matrices of eigenvectors."
  },
  {
   "property": "C103",
   "status": "partial",
   "theorems": [
    "Verif.L2tile.c103_position_partial",
    "Verif.L2tile.c103_once",
    "Verif.L2tile.c103_shifted_violated",
    "Verif.L2tile.c103_overview_violated",
    "Verif.L2tile.c103_whole",
    "Verif.L2tile.c103_rounding_violated"
   ],
   "note": "Violated: datasets that are not on the grid are shifted by a part of a pixel; overviews get the resolution of the quality product; resolutions that are not binary fractions are shifted by rounding."
  },
  {
   "property": "C104",
   "status": "proved",
   "theorems": [
    "Verif.L2tile.c104_written",
    "Verif.L2tile.c104_complete"
   ],
   "note": ""
  },
  {
   "property": "C105",
   "status": "partial",
   "theorems": [
    "Verif.L2tile.c105_extent_partial",
    "Verif.L2tile.c105_curved_violated"
   ],
   "note": "Violated for curved edges; proved for affine transformations."
  },
  {
   "property": "C106",
   "status": "partial",
   "theorems": [
    "Verif.L2tile.c106_metres_partial",
    "Verif.L2tile.c106_degrees_violated",
    "Verif.L2tile.c106_gap_violated",
    "Verif.L2tile.c106_refused_violated",
    "Verif.L2tile.c106_chunks"
   ],
   "note": "Proved for sizes in whole metres. Violated: the absolute tolerance of 0.005 accepts any tile size in degrees, and rounding drops columns or refuses multiples."
  },
  {
   "property": "C107",
   "status": "partial",
   "theorems": [
    "Verif.L2tile.c107_continents_partial",
    "Verif.L2tile.c107_nothing_else",
    "Verif.L2tile.c107_foreign_violated"
   ],
   "note": "The names of the continents are those of the tables projname7; for GLANCE7 these are not the names that are accepted in PROJECTION: see C306."
  },
  {
   "property": "C108",
   "status": "partial",
   "theorems": [
    "Verif.Sun.c108_calendar",
    "Verif.Sun.c108_accuracy_partial",
    "Verif.Sun.c108_centuries_partial",
    "Verif.Sun.c108_time_violated"
   ],
   "note": "Exact at midnight; violated: a `float` cannot hold the time of the day at this magnitude, it is rounded to six hours."
  },
  {
   "property": "C109",
   "status": "proved",
   "theorems": [
    "Verif.Sun.c109_distance",
    "Verif.Sun.c109_hour",
    "Verif.Sun.c109_direction",
    "Verif.Sun.c109_degenerate",
    "Verif.Sun.c109_refraction",
    "Verif.Sun.c109_sunpos"
   ],
   "note": ""
  },
  {
   "property": "C110",
   "status": "partial",
   "theorems": [
    "Verif.Sun.c110_instant_partial",
    "Verif.Sun.c110_newyear_violated",
    "Verif.Sun.c110_yearend_violated",
    "Verif.Sun.c110_polar_violated",
    "Verif.Sun.c110_defined"
   ],
   "note": "Violated at the turn of the year (day is clamped) and beyond 81.38 degrees (not a number converted to int)."
  },
  {
   "property": "C111",
   "status": "proved",
   "theorems": [
    "Verif.View.c111_corners",
    "Verif.View.c111_middle"
   ],
   "note": "Corners by induction over the pixels in row order."
  },
  {
   "property": "C112",
   "status": "proved",
   "theorems": [
    "Verif.View.c112_distance",
    "Verif.View.c112_zenith",
    "Verif.View.c112_landsat",
    "Verif.View.c112_single"
   ],
   "note": "The distance is shown to be the minimum over all points of the line. Real numbers (the program uses float and double)."
  },
  {
   "property": "C113",
   "status": "partial",
   "theorems": [
    "Verif.View.c113_sides_partial",
    "Verif.View.c113_direction_partial",
    "Verif.View.c113_mirrored_violated",
    "Verif.View.c113_degrees_violated"
   ],
   "note": "The program is wrong for every pixel next to the nadir line of an image with more than one row: get_brick_y counts rows northwards. c113_direction_partial is about the formula, if rows went from north to south and degrees of longitude and latitude had the same length; c113_sides_partial is about the program."
  },
  {
   "property": "C114",
   "status": "partial",
   "theorems": [
    "Verif.View.c114_lowsun",
    "Verif.View.c114_first_row_partial",
    "Verif.View.c114_north_violated"
   ],
   "note": "Only the first row of coarse cells has the angles of its location (get_brick_y counts rows northwards). The flag follows the angles."
  },
  {
   "property": "C115",
   "status": "partial",
   "theorems": [
    "Verif.View.c115_off_partial",
    "Verif.View.c115_neighbour_violated"
   ],
   "note": "All pixels of the cell are set, but rounding in float may add one row or column next to it (proved for 10 m)."
  },
  {
   "property": "C116",
   "status": "partial",
   "theorems": [
    "Verif.L1.c116_void_partial",
    "Verif.L1.c116_saturated",
    "Verif.L1.c116_void_violated",
    "Verif.L1.c116_temperature",
    "Verif.L1.c116_accepted_partial",
    "Verif.L1.c116_accepted_violated",
    "Verif.L1.c116_buffer_partial",
    "Verif.L1.c116_border_violated"
   ],
   "note": "Void pixels with a saturated band before the void one are not masked; a scene that is saturated everywhere is rejected; with the buffer, void pixels on the border are not masked (see C14)."
  },
  {
   "property": "C117",
   "status": "partial",
   "theorems": [
    "Verif.L1.c117_frame",
    "Verif.L1.c117_detection_partial",
    "Verif.L1.c117_blue_violated",
    "Verif.L1.c117_green_violated"
   ],
   "note": "Noise in the blue band is not detected, and the second largest deviation is wrong if green is largest and red second. Standard deviations are real numbers."
  },
  {
   "property": "C118",
   "status": "partial",
   "theorems": [
    "Verif.L1.c118_reflectance",
    "Verif.L1.c118_negative",
    "Verif.L1.c118_monotone",
    "Verif.L1.c118_overflow_violated",
    "Verif.L1.c118_temperature",
    "Verif.L1.c118_warmer",
    "Verif.L1.c118_masked_partial",
    "Verif.L1.c118_masked_violated"
   ],
   "note": "Real numbers. Values of 3.2768 and more are undefined; pixels masked on the way keep values in the bands before."
  },
  {
   "property": "C119",
   "status": "partial",
   "theorems": [
    "Verif.L1.c119_value_partial",
    "Verif.L1.c119_value_violated",
    "Verif.L1.c119_overflow_violated"
   ],
   "note": "With the roundings of float: n or one less. Undefined above 3.2768. The mask is not looked at (no nodata value is written for Sentinel-2; surface reflectance is set to nodata later)."
  },
  {
   "property": "C120",
   "status": "partial",
   "theorems": [
    "Verif.Tools.c120_histogram_partial",
    "Verif.Tools.c120_nodata_violated"
   ],
   "note": "Undefined if the nodata value is not a 16-bit number."
  },
  {
   "property": "C121",
   "status": "partial",
   "theorems": [
    "Verif.Tools.c121_accepts",
    "Verif.Tools.c121_bands",
    "Verif.Tools.c121_position_violated"
   ],
   "note": "Position and projection are not compared."
  },
  {
   "property": "C122",
   "status": "partial",
   "theorems": [
    "Verif.Tools.c122_grid_partial",
    "Verif.Tools.c122_curved_violated"
   ],
   "note": "Proved for the bounding box of the projected corners; the requested area can extend beyond it. Exact coordinates."
  },
  {
   "property": "C123",
   "status": "partial",
   "theorems": [
    "Verif.Tools.c123_pixel_partial",
    "Verif.Tools.c123_edge_violated"
   ],
   "note": "Exact coordinates. Points on an edge between tiles get a pixel that does not exist."
  },
  {
   "property": "C124",
   "status": "proved",
   "theorems": [
    "Verif.Tools.c124_layers",
    "Verif.Tools.c124_lossless",
    "Verif.Tools.c124_nodata"
   ],
   "note": "Proved for all 16-bit values."
  },
  {
   "property": "C125",
   "status": "partial",
   "theorems": [
    "Verif.Cloud.c125_flags_partial",
    "Verif.Cloud.c125_off",
    "Verif.Cloud.c125_edge_violated",
    "Verif.Cloud.c125_cover"
   ],
   "note": "Objects closer to the edge than the buffer width are not buffered, and their flags can become cirrus."
  },
  {
   "property": "C126",
   "status": "partial",
   "theorems": [
    "Verif.Cloud.c126_background",
    "Verif.Cloud.c126_depth_partial",
    "Verif.Cloud.c126_threads_violated"
   ],
   "note": "Holds for two or more threads; with one thread the second band overwrites the first."
  },
  {
   "property": "C127",
   "status": "partial",
   "theorems": [
    "Verif.Cloud.c127_region",
    "Verif.Cloud.c127_seeds",
    "Verif.Cloud.c127_mask",
    "Verif.Cloud.c127_blocks_partial",
    "Verif.Cloud.c127_rows_violated",
    "Verif.Cloud.c127_columns_violated"
   ],
   "note": "Proved for images with an even number of rows and columns; otherwise writes outside of the arrays or into wrong cells."
  },
  {
   "property": "C128",
   "status": "partial",
   "theorems": [
    "Verif.Cloud.c128_accepted",
    "Verif.Cloud.c128_exact_partial",
    "Verif.Cloud.c128_skip_violated"
   ],
   "note": "An accepted image never exceeds the threshold; but images can be cancelled because of the detected clouds only, without the cover being computed."
  },
  {
   "property": "C129",
   "status": "proved",
   "theorems": [
    "Verif.Cloud.c129_distance",
    "Verif.Cloud.c129_none"
   ],
   "note": "Exact distance up to one pixel because of the rounding of the distance transformation (C13)."
  },
  {
   "property": "C130",
   "status": "partial",
   "theorems": [
    "Verif.Cloud.c130_match",
    "Verif.Cloud.c130_object",
    "Verif.Cloud.c130_schedule",
    "Verif.Cloud.c130_members_partial",
    "Verif.Cloud.c130_small_violated"
   ],
   "note": "The sampled positions are integer multiples for resolutions below 30 m: small objects have no pixels."
  },
  {
   "property": "C131",
   "status": "partial",
   "theorems": [
    "Verif.Cloud.c131_potential",
    "Verif.Cloud.c131_snow_water",
    "Verif.Cloud.c131_clear",
    "Verif.Cloud.c131_probability",
    "Verif.Cloud.c131_variability_partial",
    "Verif.Cloud.c131_dark_violated",
    "Verif.Cloud.c131_negative_violated"
   ],
   "note": "Undefined conversions for dark pixels and negative reflectance. Rational numbers for float."
  },
  {
   "property": "C132",
   "status": "partial",
   "theorems": [
    "Verif.Ard.c132_identify",
    "Verif.Ard.c132_selection_partial",
    "Verif.Ard.c132_foreign_violated",
    "Verif.Ard.c132_substring_violated"
   ],
   "note": "Proved for names as Level 2 processing writes them and files that are no images; product and sensor are searched as substrings of the whole name, and an image without a date ends the program."
  },
  {
   "property": "C133",
   "status": "partial",
   "theorems": [
    "Verif.Ard.c133_companion_partial",
    "Verif.Ard.c133_sensor_violated",
    "Verif.Ard.c133_errors_partial",
    "Verif.Ard.c133_quality_violated"
   ],
   "note": "Companions: if the product does not occur in date, level or sensor. Errors: undefined if quality is needed without quality product and without main product."
  },
  {
   "property": "C134",
   "status": "partial",
   "theorems": [
    "Verif.Ard.c134_range",
    "Verif.Ard.c134_constant",
    "Verif.Ard.c134_smooth",
    "Verif.Ard.c134_weights",
    "Verif.Ard.c134_mean",
    "Verif.Ard.c134_missing_partial",
    "Verif.Ard.c134_whole",
    "Verif.Ard.c134_coverage_violated",
    "Verif.Ard.c134_nodata_violated"
   ],
   "note": "Real numbers for float. Range and constants for all ratios; missing pixels for ratios where the footprint is covered (all whole numbers); nodata -9999."
  },
  {
   "property": "C135",
   "status": "proved",
   "theorems": [
    "Verif.Ard.c135_sigma",
    "Verif.Ard.c135_half",
    "Verif.Ard.c135_kernel"
   ],
   "note": ""
  },
  {
   "property": "C136",
   "status": "proved",
   "theorems": [
    "Verif.Ard.c136_mask",
    "Verif.Ard.c136_quality"
   ],
   "note": ""
  },
  {
   "property": "C137",
   "status": "partial",
   "theorems": [
    "Verif.Gdalopt.c137_options_partial",
    "Verif.Gdalopt.c137_missing",
    "Verif.Gdalopt.c137_mandatory_violated",
    "Verif.Gdalopt.c137_repeated_violated",
    "Verif.Gdalopt.c137_unreadable"
   ],
   "note": "Proved for files with at least one line besides driver and extension, each given once; files with only the two mandatory lines end the program."
  },
  {
   "property": "C138",
   "status": "proved",
   "theorems": [
    "Verif.Gdalopt.c138_copies",
    "Verif.Gdalopt.c138_formats",
    "Verif.Gdalopt.c138_custom"
   ],
   "note": "All predefined formats and all chains of copies; custom formats as in C137."
  },
  {
   "property": "C139",
   "status": "partial",
   "theorems": [
    "Verif.Gdalopt.c139_terminator_violated",
    "Verif.Gdalopt.c139_arrays_partial"
   ],
   "note": "The arrays of vector-cl.c have no terminating NULL."
  },
  {
   "property": "C140",
   "status": "partial",
   "theorems": [
    "Verif.Wvp.c140_next_partial",
    "Verif.Wvp.c140_days_partial",
    "Verif.Wvp.c140_accepted",
    "Verif.Wvp.c140_leap_violated",
    "Verif.Wvp.c140_missing_day_violated",
    "Verif.Wvp.c140_skipped_violated",
    "Verif.Wvp.c140_repeated_violated",
    "Verif.Wvp.c140_format"
   ],
   "note": "All periods of existing dates at hours 1 to 22, or where the clock is never changed; violated within an hour of midnight with daylight saving time, and for accepted periods that are not in order or end on a missing day."
  },
  {
   "property": "C141",
   "status": "proved",
   "theorems": [
    "Verif.Wvp.c141_corners",
    "Verif.Wvp.c141_granules"
   ],
   "note": "All tables and locations; rational arithmetic."
  },
  {
   "property": "C142",
   "status": "partial",
   "theorems": [
    "Verif.Wvp.c142_average_partial",
    "Verif.Wvp.c142_swath_violated",
    "Verif.Wvp.c142_dateline_violated"
   ],
   "note": "Proved if every pixel has a geolocation, which the sizes of the MODIS product do not satisfy."
  },
  {
   "property": "C143",
   "status": "partial",
   "theorems": [
    "Verif.Wvp.c143_table_partial",
    "Verif.Wvp.c143_choice_violated"
   ],
   "note": "Choice by the number of pixels in the frame instead of the pixels used."
  },
  {
   "property": "C144",
   "status": "partial",
   "theorems": [
    "Verif.Wvp.c144_roundtrip",
    "Verif.Wvp.c144_refused",
    "Verif.Wvp.c144_locations_partial",
    "Verif.Wvp.c144_missing_file_violated",
    "Verif.Wvp.c144_separator_violated"
   ],
   "note": "All locations up to 360 degrees with the rounding of printf, atof and float."
  },
  {
   "property": "C145",
   "status": "proved",
   "theorems": [
    "Verif.Wvp.c145_climatology"
   ],
   "note": "All lists of daily tables."
  },
  {
   "property": "C146",
   "status": "partial",
   "theorems": [
    "Verif.Wvp.c146_value_partial",
    "Verif.Wvp.c146_strict_violated",
    "Verif.Wvp.c146_strict_no_effect_violated",
    "Verif.Wvp.c146_nodata_violated",
    "Verif.Wvp.c146_dateline_violated"
   ],
   "note": "Strict mode has no effect; 9999 in both tables is used as a value; locations across the date line are not found."
  },
  {
   "property": "C147",
   "status": "partial",
   "theorems": [
    "Verif.Cite.c147_first_partial",
    "Verif.Cite.c147_kept",
    "Verif.Cite.c147_history_partial",
    "Verif.Cite.c147_collision_violated",
    "Verif.Cite.c147_every_violated",
    "Verif.Cite.c147_names_violated"
   ],
   "note": "Proved for every history in which no earlier run with other methods took the name; names are an 8 bit checksum of the methods, and every set of methods shares its name with others."
  },
  {
   "property": "C148",
   "status": "partial",
   "theorems": [
    "Verif.Prod.c148_integers",
    "Verif.Prod.c148_zero",
    "Verif.Prod.c148_detected",
    "Verif.Prod.c148_float_partial",
    "Verif.Prod.c148_neighbours_violated"
   ],
   "note": "Integer images: all values. Floating point images: the neighbouring numbers of the nodata value count as nodata."
  },
  {
   "property": "C149",
   "status": "partial",
   "theorems": [
    "Verif.Prod.c149_bilinear_partial",
    "Verif.Prod.c149_range_partial",
    "Verif.Prod.c149_none",
    "Verif.Prod.c149_border_violated",
    "Verif.Prod.c149_inside"
   ],
   "note": "Violated within half a cell of the left and right edge, where missing cells contribute."
  },
  {
   "property": "C150",
   "status": "partial",
   "theorems": [
    "Verif.Prod.c150_bands",
    "Verif.Prod.c150_reflectance_partial",
    "Verif.Prod.c150_bright_violated",
    "Verif.Prod.c150_nodata_violated"
   ],
   "note": "All scenes and radiative transfers; violated for reflectances above 2 (no nodata) and between -1 and -0.9999 (nodata value without flag)."
  },
  {
   "property": "C151",
   "status": "partial",
   "theorems": [
    "Verif.Prod.c151_nodata_partial",
    "Verif.Prod.c151_values",
    "Verif.Prod.c151_late_violated",
    "Verif.Prod.c151_vapour_violated",
    "Verif.Prod.c151_overflow_violated"
   ],
   "note": "HOT and AOD are compiled before late nodata; Sentinel-2 water vapour is not masked; conversion of missing water vapour is undefined."
  },
  {
   "property": "C152",
   "status": "proved",
   "theorems": [
    "Verif.Prod.c152_inside",
    "Verif.Prod.c152_size",
    "Verif.Prod.c152_stretch",
    "Verif.Prod.c152_colours",
    "Verif.Prod.c152_pixel"
   ],
   "note": "All sizes, quality words and values."
  },
  {
   "property": "C153",
   "status": "partial",
   "theorems": [
    "Verif.Prod.c153_distance_partial",
    "Verif.Prod.c153_clear",
    "Verif.Prod.c153_degrees_violated"
   ],
   "note": "In geographic coordinates the fractional part of the distance is lost."
  },
  {
   "property": "C154",
   "status": "partial",
   "theorems": [
    "Verif.Prod.c154_range_partial",
    "Verif.Prod.c154_clouds",
    "Verif.Prod.c154_kinds",
    "Verif.Prod.c154_decay",
    "Verif.Prod.c154_column_violated"
   ],
   "note": "All patterns and resolutions up to 250 m; in columns without clear pixels, cloudy pixels get 0."
  },
  {
   "property": "C155",
   "status": "proved",
   "theorems": [
    "Verif.Mix.c155_fractions",
    "Verif.Mix.c155_target",
    "Verif.Mix.c155_profile"
   ],
   "note": "All random numbers and complexities, with rounding in double precision."
  },
  {
   "property": "C156",
   "status": "partial",
   "theorems": [
    "Verif.Mix.c156_response_partial",
    "Verif.Mix.c156_within_violated",
    "Verif.Mix.c156_original",
    "Verif.Mix.c156_lines"
   ],
   "note": "Violated if samples of the target class may be mixed with it (WITHIN_CLASS_MIXING = TRUE, the default)."
  },
  {
   "property": "C157",
   "status": "partial",
   "theorems": [
    "Verif.Mix.c157_classes",
    "Verif.Mix.c157_proportional_partial",
    "Verif.Mix.c157_equalized",
    "Verif.Mix.c157_custom",
    "Verif.Mix.c157_list_violated"
   ],
   "note": "Violated with a list of classes: the counts of other classes are used."
  },
  {
   "property": "C158",
   "status": "proved",
   "theorems": [
    "Verif.Assess.c158_enough",
    "Verif.Assess.c158_shares",
    "Verif.Assess.c158_area",
    "Verif.Assess.c158_interval"
   ],
   "note": "All matrices with natural numbers of any size."
  },
  {
   "property": "C159",
   "status": "proved",
   "theorems": [
    "Verif.Assess.c159_overall",
    "Verif.Assess.c159_range",
    "Verif.Assess.c159_proportional",
    "Verif.Assess.c159_perfect",
    "Verif.Assess.c159_interval"
   ],
   "note": "All matrices."
  },
  {
   "property": "C160",
   "status": "partial",
   "theorems": [
    "Verif.Assess.c160_producer_partial",
    "Verif.Assess.c160_producer_violated",
    "Verif.Assess.c160_single_violated"
   ],
   "note": "Violated: the sample numbers of the reference class are used in place of those of the map class."
  },
  {
   "property": "C161",
   "status": "partial",
   "theorems": [
    "Verif.Assess.c161_confusion",
    "Verif.Assess.c161_aligned_partial",
    "Verif.Assess.c161_mismatch_violated"
   ],
   "note": "Violated: one common class is enough."
  },
  {
   "property": "C162",
   "status": "proved",
   "theorems": [
    "Verif.Assess.c162_number",
    "Verif.Assess.c162_bound"
   ],
   "note": "All tables."
  },
  {
   "property": "C163",
   "status": "partial",
   "theorems": [
    "Verif.Assess.c163_proportional",
    "Verif.Assess.c163_minimum",
    "Verif.Assess.c163_total_violated"
   ],
   "note": "Violated by the compromise between equal and proportional allocation."
  },
  {
   "property": "C164",
   "status": "partial",
   "theorems": [
    "Verif.Magic.c164_all_partial",
    "Verif.Magic.c164_combinations",
    "Verif.Magic.c164_single_violated",
    "Verif.Magic.c164_comma_violated",
    "Verif.Magic.c164_space_violated"
   ],
   "note": "Violated by vectors of a single value, values with comma, and a space at the end of the definition."
  },
  {
   "property": "C165",
   "status": "partial",
   "theorems": [
    "Verif.Magic.c165_paired_partial",
    "Verif.Magic.c165_lengths",
    "Verif.Magic.c165_special_violated"
   ],
   "note": "Violated by values with + or &, which are special to sed."
  },
  {
   "property": "C166",
   "status": "partial",
   "theorems": [
    "Verif.Csd.c166_criteria",
    "Verif.Csd.c166_latest",
    "Verif.Csd.c166_found_partial",
    "Verif.Csd.c166_twice_violated"
   ],
   "note": "Violated for two acquisitions of a tile on one day."
  },
  {
   "property": "C167",
   "status": "proved",
   "theorems": [
    "Verif.Csd.c167_queue"
   ],
   "note": ""
  },
  {
   "property": "C168",
   "status": "partial",
   "theorems": [
    "Verif.Csd.c168_all_partial",
    "Verif.Csd.c168_first",
    "Verif.Csd.c168_queue_violated",
    "Verif.Csd.c168_files_violated"
   ],
   "note": "Violated by interruptions between two files and between download and queueing."
  },
  {
   "property": "C169",
   "status": "proved",
   "theorems": [
    "Verif.Topo.c169_plane",
    "Verif.Topo.c169_defined"
   ],
   "note": ""
  },
  {
   "property": "C170",
   "status": "proved",
   "theorems": [
    "Verif.Topo.c170_cosine",
    "Verif.Topo.c170_flag"
   ],
   "note": ""
  },
  {
   "property": "C171",
   "status": "proved",
   "theorems": [
    "Verif.Topo.c171_step",
    "Verif.Topo.c171_empty",
    "Verif.Topo.c171_class"
   ],
   "note": ""
  },
  {
   "property": "C172",
   "status": "partial",
   "theorems": [
    "Verif.Topo.c172_flat",
    "Verif.Topo.c172_direction",
    "Verif.Topo.c172_documented_partial",
    "Verif.Topo.c172_spectrum_violated",
    "Verif.Topo.c172_cfactor",
    "Verif.Topo.c172_regression",
    "Verif.Topo.c172_stored"
   ],
   "note": "Violated for all bands but SWIR2: the transmittances of SWIR2 are never used."
  },
  {
   "property": "C173",
   "status": "proved",
   "theorems": [
    "Verif.Topo.c173_exposition",
    "Verif.Topo.c173_kept"
   ],
   "note": ""
  },
  {
   "property": "C174",
   "status": "partial",
   "theorems": [
    "Verif.Topo.c174_sea",
    "Verif.Topo.c174_found_partial",
    "Verif.Topo.c174_coast_violated"
   ],
   "note": "Violated for sea that is reached along a row first."
  },
  {
   "property": "C175",
   "status": "proved",
   "theorems": [
    "Verif.Radtran.c175_parts",
    "Verif.Radtran.c175_monotone",
    "Verif.Radtran.c175_albedo",
    "Verif.Radtran.c175_elevation",
    "Verif.Radtran.c175_gas",
    "Verif.Radtran.c175_gases"
   ],
   "note": ""
  },
  {
   "property": "C176",
   "status": "partial",
   "theorems": [
    "Verif.Radtran.c176_inverse",
    "Verif.Radtran.c176_surroundings",
    "Verif.Radtran.c176_uniform_partial",
    "Verif.Radtran.c176_uniform_violated",
    "Verif.Radtran.c176_factors"
   ],
   "note": "Violated: the two corrections apply gas absorption differently to path reflectance."
  },
  {
   "property": "C177",
   "status": "proved",
   "theorems": [
    "Verif.Radtran.c177_angle",
    "Verif.Radtran.c177_molecules",
    "Verif.Radtran.c177_aerosols",
    "Verif.Radtran.c177_forward",
    "Verif.Radtran.c177_reciprocal",
    "Verif.Radtran.c177_single"
   ],
   "note": ""
  },
  {
   "property": "C178",
   "status": "proved",
   "theorems": [
    "Verif.Radtran.c178_weight",
    "Verif.Radtran.c178_pure"
   ],
   "note": ""
  },
  {
   "property": "C179",
   "status": "partial",
   "theorems": [
    "Verif.Radtran.c179_reciprocal",
    "Verif.Radtran.c179_azimuth",
    "Verif.Radtran.c179_zenith",
    "Verif.Radtran.c179_factor_partial",
    "Verif.Radtran.c179_low_sun_violated",
    "Verif.Radtran.c179_bands"
   ],
   "note": "Violated for the sun near the horizon."
  },
  {
   "property": "C180",
   "status": "partial",
   "theorems": [
    "Verif.Radtran.c180_fresnel_partial",
    "Verif.Radtran.c180_perpendicular_violated"
   ],
   "note": "Violated for the sun in the zenith."
  },
  {
   "property": "C181",
   "status": "partial",
   "theorems": [
    "Verif.Radtran.c181_heuklon_partial",
    "Verif.Radtran.c181_range",
    "Verif.Radtran.c181_meridian_violated"
   ],
   "note": "Violated on the northern prime meridian."
  },
  {
   "property": "C182",
   "status": "partial",
   "theorems": [
    "Verif.Radtran.c182_once",
    "Verif.Radtran.c182_square_partial",
    "Verif.Radtran.c182_location_violated"
   ],
   "note": "Violated for images whose coarse grid is not square."
  },
  {
   "property": "C183",
   "status": "proved",
   "theorems": [
    "Verif.Meta.c183_calibration"
   ],
   "note": ""
  },
  {
   "property": "C184",
   "status": "partial",
   "theorems": [
    "Verif.Meta.c184_minimum_violated",
    "Verif.Meta.c184_refused_partial"
   ],
   "note": "Violated: the maximum radiance is checked twice, the minimum radiance never; a file without it is accepted with the fill value as calibration."
  },
  {
   "property": "C185",
   "status": "partial",
   "theorems": [
    "Verif.Meta.c185_tier_partial",
    "Verif.Meta.c185_order_violated"
   ],
   "note": "Violated: a later line with the processing level overwrites the tier of the collection category."
  },
  {
   "property": "C186",
   "status": "proved",
   "theorems": [
    "Verif.Meta.c186_columns",
    "Verif.Meta.c186_rows",
    "Verif.Meta.c186_resolution",
    "Verif.Meta.c186_left",
    "Verif.Meta.c186_top",
    "Verif.Meta.c186_date",
    "Verif.Meta.c186_time"
   ],
   "note": ""
  },
  {
   "property": "C187",
   "status": "partial",
   "theorems": [
    "Verif.Meta.Grid.c187_cell_partial",
    "Verif.Meta.Grid.c187_between",
    "Verif.Meta.Grid.c187_collapse",
    "Verif.Meta.Grid.c187_north_violated",
    "Verif.Meta.Grid.c187_detectors_violated",
    "Verif.Meta.Grid.c187_zero_violated",
    "Verif.Meta.Grid.c187_square_only"
   ],
   "note": "Violated for directions on both sides of north, for detectors that look in opposite directions, and for angles of zero."
  },
  {
   "property": "C188",
   "status": "proved",
   "theorems": [
    "Verif.Meta.Grid.c188_covers",
    "Verif.Meta.Grid.c188_aligned",
    "Verif.Meta.Grid.c188_empty"
   ],
   "note": ""
  },
  {
   "property": "C189",
   "status": "partial",
   "theorems": [
    "Verif.Meta.Grid.c189_offset_partial",
    "Verif.Meta.Grid.c189_range_violated"
   ],
   "note": "Violated: the test of the band number is always true."
  },
  {
   "property": "C190",
   "status": "partial",
   "theorems": [
    "Verif.Merge.c190_exact_partial",
    "Verif.Merge.c190_schedule_violated",
    "Verif.Merge.c190_border_violated"
   ],
   "note": "Violated: the band is updated in place while neighbours are read, and missing pixels of a window are replaced by zeros."
  },
  {
   "property": "C191",
   "status": "partial",
   "theorems": [
    "Verif.Merge.c191_range_partial",
    "Verif.Merge.c191_neighbours",
    "Verif.Merge.c191_weight",
    "Verif.Merge.c191_rounding_violated"
   ],
   "note": "Violated by truncation after rounding in double arithmetic; proved in exact arithmetic."
  },
  {
   "property": "C192",
   "status": "partial",
   "theorems": [
    "Verif.Merge.c192_blocks_partial",
    "Verif.Merge.c192_flag_violated",
    "Verif.Merge.c192_candidate",
    "Verif.Merge.c192_range",
    "Verif.Merge.c192_flat",
    "Verif.Merge.c192_weight",
    "Verif.Merge.c192_close_violated",
    "Verif.Merge.c192_stored",
    "Verif.Merge.c192_off_violated"
   ],
   "note": "Violated with missing pixels: the number of a block is used as the number of a pixel, and pixels that are off are set to zero; very close candidates get less weight than less close ones."
  },
  {
   "property": "C193",
   "status": "partial",
   "theorems": [
    "Verif.Texture.c193_order",
    "Verif.Texture.c193_idempotent",
    "Verif.Texture.c193_excluded",
    "Verif.Texture.c193_nodata_violated",
    "Verif.Texture.c193_mask_violated"
   ],
   "note": "Violated: nodata enters erosion and gradient, and the processing mask has no effect if unusable pixels are not excluded."
  },
  {
   "property": "C194",
   "status": "partial",
   "theorems": [
    "Verif.Texture.c194_wide",
    "Verif.Texture.c194_halo_partial",
    "Verif.Texture.c194_halo_violated"
   ],
   "note": "Violated for opening, closing and the hats: the halo is half as wide as needed."
  },
  {
   "property": "C195",
   "status": "proved",
   "theorems": [
    "Verif.Homo.c195_cosine",
    "Verif.Homo.c195_range"
   ],
   "note": ""
  },
  {
   "property": "C196",
   "status": "partial",
   "theorems": [
    "Verif.Homo.c196_brightness",
    "Verif.Homo.c196_nearest_partial",
    "Verif.Homo.c196_close",
    "Verif.Homo.c196_nine_violated",
    "Verif.Homo.c196_global_violated"
   ],
   "note": "Partial because the code violates it: the first scan leaves out cluster 9 instead of the global cluster. c196_nearest_partial covers all angles for which neither cluster 9 nor a global cluster within 4 degrees is the nearest one."
  },
  {
   "property": "C197",
   "status": "proved",
   "theorems": [
    "Verif.Homo.c197_only",
    "Verif.Homo.c197_written",
    "Verif.Homo.c197_stop"
   ],
   "note": ""
  },
  {
   "property": "C198",
   "status": "partial",
   "theorems": [
    "Verif.Udf.c198_python",
    "Verif.Udf.c198_python_tsa",
    "Verif.Udf.c198_r_pixel",
    "Verif.Udf.c198_r_chunk_violated"
   ],
   "note": "Violated for R functions for chunks: the array is filled pixel by pixel in row order, but R takes rows as the faster dimension."
  },
  {
   "property": "C199",
   "status": "partial",
   "theorems": [
    "Verif.Udf.c199_python_pixel",
    "Verif.Udf.c199_python_chunk",
    "Verif.Udf.c199_r_pixel",
    "Verif.Udf.c199_r_chunk_violated",
    "Verif.Udf.c199_r_pixelwise"
   ],
   "note": "Violated for R functions for chunks, for the same reason; functions that treat every pixel by itself are not affected (c199_r_pixelwise)."
  },
  {
   "property": "C200",
   "status": "partial",
   "theorems": [
    "Verif.Udf.c200_python_violated",
    "Verif.Udf.c200_r_partial",
    "Verif.Udf.c200_r_chunk_violated"
   ],
   "note": "Violated for Python, where the mask is not used, and for R functions for chunks."
  },
  {
   "property": "C201",
   "status": "partial",
   "theorems": [
    "Verif.Udf.c201_python",
    "Verif.Udf.c201_r_violated",
    "Verif.Udf.c201_short_aux",
    "Verif.Udf.c201_short_violated"
   ],
   "note": "Violated for R: the null pointer that reports an error is dereferenced, and the length of the result is not checked."
  },
  {
   "property": "C202",
   "status": "partial",
   "theorems": [
    "Verif.Tsa.c202_days_partial",
    "Verif.Tsa.c202_last_violated",
    "Verif.Tsa.c202_none",
    "Verif.Tsa.c202_defined"
   ],
   "note": "Violated: the number of steps is the truncated quotient (ceil of an integer division), so the last requested day is missing unless INT_DAY divides the length of the period."
  },
  {
   "property": "C203",
   "status": "partial",
   "theorems": [
    "Verif.Tsa.c203_table",
    "Verif.Tsa.c203_products_partial",
    "Verif.Tsa.c203_rms_violated",
    "Verif.Tsa.c203_inputs",
    "Verif.Tsa.c203_kinds"
   ],
   "note": "Violated for the error of the unmixing, which is written for all indices if SMA is one of them."
  },
  {
   "property": "C204",
   "status": "partial",
   "theorems": [
    "Verif.Tsa.c204_files",
    "Verif.Tsa.c204_bands_partial",
    "Verif.Tsa.c204_bands_violated"
   ],
   "note": "Violated with OUTPUT_EXPLODE and without interpolation: interpolated layers are named by the date only, and there may be several images per date."
  },
  {
   "property": "C205",
   "status": "proved",
   "theorems": [
    "Verif.Tsa.c205_nrt",
    "Verif.Tsa.c205_inter",
    "Verif.Tsa.c205_images"
   ],
   "note": ""
  },
  {
   "property": "C206",
   "status": "partial",
   "theorems": [
    "Verif.Tsa.c206_fit",
    "Verif.Tsa.c206_nodata",
    "Verif.Tsa.c206_nrt_violated",
    "Verif.Tsa.c206_periodic"
   ],
   "note": "Violated for the near-real-time product, which is 0 instead of nodata in pixels without a fit. The regression is an arbitrary function that minimises an arbitrary measure; the robust regression of the GSL is not modelled. Exact arithmetic."
  },
  {
   "property": "C207",
   "status": "proved",
   "theorems": [
    "Verif.Tsa.c207_refused",
    "Verif.Tsa.c207_rules"
   ],
   "note": ""
  },
  {
   "property": "C208",
   "status": "partial",
   "theorems": [
    "Verif.Rules.c208_grid_partial",
    "Verif.Rules.c208_positive",
    "Verif.Rules.c208_small_violated",
    "Verif.Rules.c208_tenth_violated"
   ],
   "note": "Violated for resolutions up to 0.005 (degrees), where every chunk size is accepted, and for a resolution of 0.1, where no whole number is accepted."
  },
  {
   "property": "C209",
   "status": "partial",
   "theorems": [
    "Verif.Rules.c209_margin",
    "Verif.Rules.c209_multiple_partial",
    "Verif.Rules.c209_texture_violated",
    "Verif.Rules.c209_kernel_violated"
   ],
   "note": "Violated for texture, where only the product of radius and iterations is checked, and for ImproPhe, where only the larger radius is checked."
  },
  {
   "property": "C210",
   "status": "partial",
   "theorems": [
    "Verif.Rules.c210_tiles",
    "Verif.Rules.c210_dates_violated",
    "Verif.Rules.c210_years"
   ],
   "note": "Violated for the date range, whose order is not looked at."
  },
  {
   "property": "C211",
   "status": "partial",
   "theorems": [
    "Verif.Rules.c211_order",
    "Verif.Rules.c211_count",
    "Verif.Rules.c211_refused_violated"
   ],
   "note": "Violated: the return value of the check of the features is ignored."
  },
  {
   "property": "C212",
   "status": "proved",
   "theorems": [
    "Verif.Rules.c212_consistent",
    "Verif.Rules.c212_switches"
   ],
   "note": ""
  },
  {
   "property": "C213",
   "status": "partial",
   "theorems": [
    "Verif.Rules.c213_first_word_partial",
    "Verif.Rules.c213_distinct",
    "Verif.Rules.c213_long_violated"
   ],
   "note": "Violated for first words of 65536 characters or more, which overrun the buffer."
  },
  {
   "property": "C214",
   "status": "partial",
   "theorems": [
    "Verif.Aod.c214_one_cell_partial",
    "Verif.Aod.c214_straddle_violated"
   ],
   "note": "Violated if the cell size is not a multiple of the pixel size, e.g. for Landsat: the cells are separated every 166 pixels, while a cell has 166.67 pixels."
  },
  {
   "property": "C215",
   "status": "proved",
   "theorems": [
    "Verif.Aod.c215_reflectance"
   ],
   "note": ""
  },
  {
   "property": "C216",
   "status": "partial",
   "theorems": [
    "Verif.Aod.c216_best_match",
    "Verif.Aod.c216_schedule_partial",
    "Verif.Aod.c216_history_violated"
   ],
   "note": "Violated for targets for which no AOD is reasonable: they take over the estimates of the target that the thread worked on before."
  },
  {
   "property": "C217",
   "status": "proved",
   "theorems": [
    "Verif.Aod.c217_accepted"
   ],
   "note": ""
  },
  {
   "property": "C218",
   "status": "proved",
   "theorems": [
    "Verif.Aod.c218_least_squares",
    "Verif.Aod.c218_angstrom"
   ],
   "note": ""
  },
  {
   "property": "C219",
   "status": "proved",
   "theorems": [
    "Verif.Aod.c219_cell",
    "Verif.Aod.c219_map"
   ],
   "note": ""
  },
  {
   "property": "C220",
   "status": "proved",
   "theorems": [
    "Verif.Aod.c220_height"
   ],
   "note": ""
  },
  {
   "property": "C221",
   "status": "partial",
   "theorems": [
    "Verif.Aod.c221_nearest_partial",
    "Verif.Aod.c221_antimeridian_violated",
    "Verif.Aod.c221_empty_line_violated",
    "Verif.Aod.c221_fallback"
   ],
   "note": "Violated across the antimeridian, since distances are in degrees, and for files with an empty line."
  },
  {
   "property": "C222",
   "status": "partial",
   "theorems": [
    "Verif.Coreg.c222_rows",
    "Verif.Coreg.c222_band",
    "Verif.Coreg.c222_bilinear_partial",
    "Verif.Coreg.c222_between_partial",
    "Verif.Coreg.c222_identity_violated",
    "Verif.Coreg.c222_whole",
    "Verif.Coreg.c222_outside_violated"
   ],
   "note": "Exact arithmetic. Negative values are increased by one even without any movement (truncation after adding 0.5), and positions up to one pixel outside are extrapolated with negative weights."
  },
  {
   "property": "C223",
   "status": "partial",
   "theorems": [
    "Verif.Coreg.c223_band",
    "Verif.Coreg.c223_coregister_partial",
    "Verif.Coreg.c223_off_partial",
    "Verif.Coreg.c223_rest",
    "Verif.Coreg.c223_nearest",
    "Verif.Coreg.c223_off_violated"
   ],
   "note": "Only the first pixels, as many as the image has rows, are reconciled: the number of rows is used as the number of pixels."
  },
  {
   "property": "C224",
   "status": "partial",
   "theorems": [
    "Verif.Coreg.c224_few_points_violated",
    "Verif.Coreg.c224_limit_partial"
   ],
   "note": "With fewer than twelve dense tie points the coefficients stay zero, which passes the limit of six pixels: all pixels become copies of the first one."
  },
  {
   "property": "C225",
   "status": "proved",
   "theorems": [
    "Verif.Coreg.c225_solution",
    "Verif.Coreg.c225_singular"
   ],
   "note": "Exact arithmetic in place of double."
  },
  {
   "property": "C226",
   "status": "partial",
   "theorems": [
    "Verif.Coreg.c226_affine_partial",
    "Verif.Coreg.c226_polynomial_partial",
    "Verif.Coreg.c226_line",
    "Verif.Coreg.c226_conic",
    "Verif.Coreg.c226_shift_partial",
    "Verif.Coreg.c226_shift_violated"
   ],
   "note": "The normal equations are not cleared between iterations, and the stop criterion truncates to integers: exact for offsets below one pixel, biased beyond."
  },
  {
   "property": "C227",
   "status": "proved",
   "theorems": [
    "Verif.Coreg.c227_kept",
    "Verif.Coreg.c227_removed",
    "Verif.Coreg.c227_perfect",
    "Verif.Coreg.c227_choice",
    "Verif.Coreg.c227_refit",
    "Verif.Coreg.c227_refit_dense",
    "Verif.Coreg.c227_error",
    "Verif.Coreg.c227_few"
   ],
   "note": "Squares of residuals are compared."
  },
  {
   "property": "C228",
   "status": "proved",
   "theorems": [
    "Verif.Coreg.c228_attempts"
   ],
   "note": "The thresholds are decimal numbers in the model; the double comparisons give the same results."
  },
  {
   "property": "C229",
   "status": "partial",
   "theorems": [
    "Verif.Coreg.c229_mean_partial",
    "Verif.Coreg.c229_bottom_violated",
    "Verif.Coreg.c229_layer"
   ],
   "note": "At the lower and right border the window is cut off too early, so that the last rows and columns are not used there. Filter weights are a parameter, at least 1e-10."
  },
  {
   "property": "C230",
   "status": "proved",
   "theorems": [
    "Verif.Coreg.c230_similarity",
    "Verif.Coreg.c230_correlation"
   ],
   "note": "Numerator and square of the denominator are compared; exact arithmetic."
  },
  {
   "property": "C231",
   "status": "partial",
   "theorems": [
    "Verif.Coreg.c231_base",
    "Verif.Coreg.c231_none",
    "Verif.Coreg.c231_order_violated",
    "Verif.Coreg.c231_buffer"
   ],
   "note": "Partial since two files for one year are taken in directory order."
  },
  {
   "property": "C232",
   "status": "proved",
   "theorems": [
    "Verif.Skel.c232_comments",
    "Verif.Skel.c232_skeleton"
   ],
   "note": "Tables extracted by a script from the sources; comments of the skeletons are arbitrary lines that are empty or begin with #."
  },
  {
   "property": "C233",
   "status": "partial",
   "theorems": [
    "Verif.Skel.c233_default_partial",
    "Verif.Skel.c233_lsp_violated"
   ],
   "note": "BASE_LSP = NULL is one name, three are expected: the check fails for Level 3 unless the line is replaced."
  },
  {
   "property": "C234",
   "status": "partial",
   "theorems": [
    "Verif.Skel.c234_mix_partial",
    "Verif.Skel.c234_equal_violated",
    "Verif.Skel.c234_comment_violated"
   ],
   "note": "Values with '=' and comments after values are not handled."
  },
  {
   "property": "C235",
   "status": "partial",
   "theorems": [
    "Verif.Train.c235_count_partial",
    "Verif.Train.c235_near",
    "Verif.Train.c235_all_violated",
    "Verif.Train.c235_runs",
    "Verif.Train.c235_empty_violated",
    "Verif.Train.c235_class",
    "Verif.Train.c235_split"
   ],
   "note": "Random numbers: any sequence that does not avoid a sample for ever."
  },
  {
   "property": "C236",
   "status": "partial",
   "theorems": [
    "Verif.Train.c236_proportional",
    "Verif.Train.c236_antiproportional",
    "Verif.Train.c236_order",
    "Verif.Train.c236_custom",
    "Verif.Train.c236_none",
    "Verif.Train.c236_training_violated",
    "Verif.Train.c236_sum_partial",
    "Verif.Train.c236_negative_violated",
    "Verif.Train.c236_keyword"
   ],
   "note": "Exact arithmetic for the sum of antiproportional weights; their order holds with rounding."
  },
  {
   "property": "C237",
   "status": "proved",
   "theorems": [
    "Verif.Train.c237_criteria",
    "Verif.Train.c237_features",
    "Verif.Train.c237_samples",
    "Verif.Train.c237_grid"
   ],
   "note": ""
  },
  {
   "property": "C238",
   "status": "proved",
   "theorems": [
    "Verif.Train.c238_accuracy",
    "Verif.Train.c238_rmse",
    "Verif.Train.c238_line"
   ],
   "note": "Exact arithmetic; the root is not modelled."
  },
  {
   "property": "C239",
   "status": "proved",
   "theorems": [
    "Verif.Share.c239_images",
    "Verif.Share.c239_update",
    "Verif.Share.c239_complete",
    "Verif.Share.c239_directory",
    "Verif.Share.c239_directory_kept"
   ],
   "note": "CPLLockFile of GDAL is assumed to create lock files atomically. Chunk mode is C26."
  },
  {
   "property": "C240",
   "status": "proved",
   "theorems": [
    "Verif.Share.c240_provenance",
    "Verif.Share.c240_table"
   ],
   "note": "Names that contain the separators of the table (comma, semicolon, end of line) are excluded in c240_table."
  },
  {
   "property": "C241",
   "status": "partial",
   "theorems": [
    "Verif.Share.c241_crash_violated",
    "Verif.Share.c241_order_violated",
    "Verif.Share.c241_recorded_partial"
   ],
   "note": ""
  },
  {
   "property": "C242",
   "status": "partial",
   "theorems": [
    "Verif.Share.c242_stale_violated",
    "Verif.Share.c242_no_failure",
    "Verif.Share.c242_finish",
    "Verif.Share.c242_lost_violated"
   ],
   "note": "c242_no_failure and c242_finish hold if no process is stopped."
  },
  {
   "property": "C243",
   "status": "proved",
   "theorems": [
    "Verif.Share.c243_timeout",
    "Verif.Share.c243_ends"
   ],
   "note": "Real arithmetic."
  },
  {
   "property": "C244",
   "status": "proved",
   "theorems": [
    "Verif.Ps.c244_order",
    "Verif.Ps.c244_complete",
    "Verif.Ps.c244_failure",
    "Verif.Ps.c244_cancelled"
   ],
   "note": "What the single steps do is modelled elsewhere; each has an arbitrary return code here, except that masks and angles do not return CANCEL (hypothesis hb: no code of this kind is in the two functions)."
  },
  {
   "property": "C245",
   "status": "proved",
   "theorems": [
    "Verif.Ps.c245_accepted",
    "Verif.Ps.c245_switches",
    "Verif.Ps.c245_projection",
    "Verif.Ps.c245_cut"
   ],
   "note": ""
  },
  {
   "property": "C246",
   "status": "partial",
   "theorems": [
    "Verif.Gas.c246_blocks",
    "Verif.Gas.c246_own",
    "Verif.Gas.c246_filled",
    "Verif.Gas.c246_off",
    "Verif.Gas.c246_estimates",
    "Verif.Gas.c246_none_violated",
    "Verif.Gas.c246_tiny_violated",
    "Verif.Gas.c246_corner_violated",
    "Verif.Gas.c246_valid_partial"
   ],
   "note": "Violated: without any estimate all pixels get 0 without flag; estimates of at most 0.0005 cm are replaced by the mean (own estimate proved from 0.001 cm on); the water vapour band is read in a pixel that may have no data. The simplex search is an arbitrary function."
  },
  {
   "property": "C247",
   "status": "partial",
   "theorems": [
    "Verif.Gas.c247_threads_partial",
    "Verif.Gas.c247_threads_violated"
   ],
   "note": "Violated if the result of the search depends on its start value, which is the last result of the same thread; holds otherwise."
  },
  {
   "property": "C248",
   "status": "partial",
   "theorems": [
    "Verif.Gas.c248_angle",
    "Verif.Gas.c248_tabulated",
    "Verif.Gas.c248_vapor_partial",
    "Verif.Gas.c248_close_partial",
    "Verif.Gas.c248_exact_violated"
   ],
   "note": "Violated for 0.29 cm, which is looked up as 0.28; values that are no multiple of 0.01 cm are looked up correctly, multiples at most one entry too low. Angles: no violation, given that the extremes of the cosines are those of the image."
  },
  {
   "property": "C249",
   "status": "partial",
   "theorems": [
    "Verif.Gas.c249_own_partial",
    "Verif.Gas.c249_corner_violated"
   ],
   "note": "Violated: the water vapour of the upper left pixel of the block is used, also if it has no data. The partial theorem needs estimates of at least 0.001 cm."
  },
  {
   "property": "C250",
   "status": "proved",
   "theorems": [
    "Verif.Gas.c250_truth",
    "Verif.Gas.c250_zero"
   ],
   "note": "Rational arithmetic."
  },
  {
   "property": "C251",
   "status": "proved",
   "theorems": [
    "Verif.Copy.c251_copy",
    "Verif.Copy.c251_new",
    "Verif.Copy.c251_size",
    "Verif.Copy.c251_no_provenance",
    "Verif.Copy.c251_domain"
   ],
   "note": "`c251_no_provenance` states the limit that an image without provenance cannot be copied (all callers set one)."
  },
  {
   "property": "C252",
   "status": "proved",
   "theorems": [
    "Verif.Copy.c252_more",
    "Verif.Copy.c252_fewer",
    "Verif.Copy.c252_chunk"
   ],
   "note": "`c252_chunk` states a limit outside the property: within a chunk the new bands get the size of the whole image. The function is only called in Level 2 processing, which does not use chunks."
  },
  {
   "property": "C253",
   "status": "proved",
   "theorems": [
    "Verif.Cprob.c253_interpolation",
    "Verif.Cprob.c253_single",
    "Verif.Cprob.c253_order",
    "Verif.Cprob.c253_monotone",
    "Verif.Cprob.c253_share",
    "Verif.Cprob.c253_range",
    "Verif.Cprob.c253_affine"
   ],
   "note": ""
  },
  {
   "property": "C254",
   "status": "proved",
   "theorems": [
    "Verif.Cprob.c254_range",
    "Verif.Cprob.c254_colder",
    "Verif.Cprob.c254_warm",
    "Verif.Cprob.c254_mild",
    "Verif.Cprob.c254_cold",
    "Verif.Cprob.c254_share",
    "Verif.Cprob.c254_threshold"
   ],
   "note": ""
  },
  {
   "property": "C255",
   "status": "proved",
   "theorems": [
    "Verif.Cprob.c255_share",
    "Verif.Cprob.c255_no_water",
    "Verif.Cprob.c255_colder"
   ],
   "note": ""
  },
  {
   "property": "C256",
   "status": "proved",
   "theorems": [
    "Verif.Cprob.c256_mask",
    "Verif.Cprob.c256_dark",
    "Verif.Cprob.c256_calibration",
    "Verif.Cprob.c256_cover"
   ],
   "note": "Calibration (`c256_calibration`) is stated in exact arithmetic."
  },
  {
   "property": "C257",
   "status": "partial",
   "theorems": [
    "Verif.Pac.c257_targets_partial",
    "Verif.Pac.c257_first_violated",
    "Verif.Pac.c257_stale_violated"
   ],
   "note": "A layer without any plausible date takes the line of the layer before (`c257_stale_violated`) or uninitialised variables (`c257_first_violated`)."
  },
  {
   "property": "C258",
   "status": "proved",
   "theorems": [
    "Verif.Avec.c258_start",
    "Verif.Avec.c258_unique",
    "Verif.Avec.c258_scale",
    "Verif.Avec.c258_length"
   ],
   "note": ""
  },
  {
   "property": "C259",
   "status": "partial",
   "theorems": [
    "Verif.Avec.c259_year",
    "Verif.Avec.c259_between",
    "Verif.Avec.c259_order",
    "Verif.Avec.c259_empty_violated"
   ],
   "note": "A window without steps gives 0/0 (`c259_empty_violated`)."
  },
  {
   "property": "C260",
   "status": "partial",
   "theorems": [
    "Verif.Avec.c260_start",
    "Verif.Avec.c260_seasons",
    "Verif.Avec.c260_dates",
    "Verif.Avec.c260_empty_violated"
   ],
   "note": "A season without steps gives 0/0 (`c260_empty_violated`)."
  },
  {
   "property": "C261",
   "status": "partial",
   "theorems": [
    "Verif.Input.c261_skip",
    "Verif.Input.c261_pixels_partial",
    "Verif.Input.c261_cut_violated"
   ],
   "note": "The values of the mask must be between 0 and 255, see `c261_cut_violated`."
  },
  {
   "property": "C262",
   "status": "proved",
   "theorems": [
    "Verif.Input.c262_complete",
    "Verif.Input.c262_usable",
    "Verif.Input.c262_missing",
    "Verif.Input.c262_computed"
   ],
   "note": ""
  },
  {
   "property": "C263",
   "status": "proved",
   "theorems": [
    "Verif.Input.c263_fields",
    "Verif.Input.c263_images"
   ],
   "note": ""
  },
  {
   "property": "C264",
   "status": "partial",
   "theorems": [
    "Verif.Naming.c264_classes_violated",
    "Verif.Naming.c264_fields_violated",
    "Verif.Naming.c264_features_violated",
    "Verif.Naming.c264_statistic_violated",
    "Verif.Naming.c264_number_violated",
    "Verif.Naming.c264_level3",
    "Verif.Naming.c264_cso_partial",
    "Verif.Naming.c264_ml_partial",
    "Verif.Naming.c264_texture_partial",
    "Verif.Naming.c264_landscape_partial",
    "Verif.Naming.c264_library_partial",
    "Verif.Naming.c264_fields_partial",
    "Verif.Naming.c264_improphe",
    "Verif.Naming.c264_user"
   ],
   "note": "Violated for class probabilities with OUTPUT_EXPLODE, for input names that are equal up to their first dot and for statistics requested twice."
  },
  {
   "property": "C265",
   "status": "partial",
   "theorems": [
    "Verif.Naming.c265_folders_partial",
    "Verif.Naming.c265_improphe_violated"
   ],
   "note": "Level 2 ImproPhe ignores OUTPUT_SUBFOLDERS."
  },
  {
   "property": "C266",
   "status": "partial",
   "theorems": [
    "Verif.Naming.c266_level3_partial",
    "Verif.Naming.c266_bands",
    "Verif.Naming.c266_windows",
    "Verif.Naming.c266_composite_violated"
   ],
   "note": "Composites and previews are never exploded."
  },
  {
   "property": "C267",
   "status": "proved",
   "theorems": [
    "Verif.Watch.c267_times",
    "Verif.Watch.c267_consistent",
    "Verif.Watch.c267_in_turn"
   ],
   "note": "All interleavings of the measurements of the three stages, any number of units. Times are whole seconds (time/difftime), as in the code."
  },
  {
   "property": "C268",
   "status": "proved",
   "theorems": [
    "Verif.Watch.c268_percent",
    "Verif.Watch.c268_computed",
    "Verif.Watch.c268_eta"
   ],
   "note": "Percentage with float and double rounding (any rounding to nearest); n up to 2^24 units. c268_computed ties the counter to the units that were computed in the earlier loop bodies."
  },
  {
   "property": "C269",
   "status": "proved",
   "theorems": [
    "Verif.Watch.c269_complete",
    "Verif.Watch.c269_unreadable"
   ],
   "note": "c269_complete gives the exact condition. The outcomes of the functions that are called are parameters."
  },
  {
   "property": "C270",
   "status": "partial",
   "theorems": [
    "Verif.Watch.c270_written_partial",
    "Verif.Watch.c270_lock_violated",
    "Verif.Watch.c270_write_violated",
    "Verif.Watch.c270_no_lock"
   ],
   "note": "Violated: a directory lock timeout silently drops the products of the unit (c270_lock_violated), and the result of write_brick is ignored while its bytes are counted (c270_write_violated). Proved: if locks and writes succeed, exactly the requested products reach the disk."
  },
  {
   "property": "C271",
   "status": "proved",
   "theorems": [
    "Verif.Match.c271_points",
    "Verif.Match.c271_limit",
    "Verif.Match.c271_enough"
   ],
   "note": "Gradients, strength and mean are any numbers. c271_limit says which limit is used."
  },
  {
   "property": "C272",
   "status": "partial",
   "theorems": [
    "Verif.Match.c272_margin",
    "Verif.Match.c272_position_partial",
    "Verif.Match.c272_stale_violated"
   ],
   "note": "Violated: the start position lives on from the previous point if no position around a point correlates positively (c272_stale_violated; correlation and fit are free parameters there). Proved: the distance if one of the nine positions correlates positively, and all other parts without that condition."
  },
  {
   "property": "C273",
   "status": "proved",
   "theorems": [
    "Verif.Match.c273_reads",
    "Verif.Match.c273_ties"
   ],
   "note": "Rational instead of float positions. The fit is arbitrary. c273_reads needs scales of at least 2 and limits of at most 0.4 (the code: 2; 0.35 and 0.4)."
  },
  {
   "property": "C274",
   "status": "proved",
   "theorems": [
    "Verif.Match.c274_reads",
    "Verif.Match.c274_match",
    "Verif.Match.c274_found"
   ],
   "note": "The fit and the prediction are arbitrary."
  },
  {
   "property": "C275",
   "status": "proved",
   "theorems": [
    "Verif.Match.c275_ends",
    "Verif.Match.c275_float",
    "Verif.Match.c275_best"
   ],
   "note": "Similarities are multiples of the smallest float and at most 1 (C230 bounds the similarity). The equations are arbitrary."
  },
  {
   "property": "C276",
   "status": "partial",
   "theorems": [
    "Verif.Modis.c276_flags",
    "Verif.Modis.c276_clear",
    "Verif.Modis.c276_cloudy_partial",
    "Verif.Modis.c276_cloudy_violated"
   ],
   "note": "Violated: the bit for pixels next to a cloud overwrites the cloud state (c276_cloudy_violated). Proved: all other flags, clear pixels, and cloudy pixels without that bit."
  },
  {
   "property": "C277",
   "status": "partial",
   "theorems": [
    "Verif.Modis.c277_nodata_partial",
    "Verif.Modis.c277_fill_violated"
   ],
   "note": "Violated: only the first band is tested (c277_fill_violated). Proved: the effect of a fill value in the first band."
  },
  {
   "property": "C278",
   "status": "partial",
   "theorems": [
    "Verif.Modis.c278_range_partial",
    "Verif.Modis.c278_saturated_violated"
   ],
   "note": "Violated: the check stops at the first band out of range (c278_saturated_violated). Proved: the first band out of range decides."
  },
  {
   "property": "C279",
   "status": "partial",
   "theorems": [
    "Verif.Modis.c279_name_partial",
    "Verif.Modis.c279_leap_violated",
    "Verif.Modis.c279_refused",
    "Verif.Modis.c279_distinct"
   ],
   "note": "Violated: the date is one day late from February 29 of leap years on (c279_leap_violated; a comment in the code mentions the inaccuracy). Proved: all other days, the refusals, and that files do not collide, also in leap years."
  },
  {
   "property": "C280",
   "status": "proved",
   "theorems": [
    "Verif.Csv.c280_roundtrip",
    "Verif.Csv.c280_integers",
    "Verif.Csv.c280_histogram",
    "Verif.Csv.c280_empty"
   ],
   "note": "printf and atof are the models of Libc with exact decimal values; the rounding to doubles is any function, and fixes integers up to 2^53 where stated. Row names are written and skipped when read. A histogram without any valid pixel cannot be read (c280_empty)."
  },
  {
   "property": "C281",
   "status": "proved",
   "theorems": [
    "Verif.Dem.c281_kept",
    "Verif.Dem.c281_mean",
    "Verif.Dem.c281_range"
   ],
   "note": "Rational numbers; known means that the elevation differs from nodata by more than the relative tolerance 2^-23 of fequal."
  },
  {
   "property": "C282",
   "status": "partial",
   "theorems": [
    "Verif.Dem.c282_mean",
    "Verif.Dem.c282_disjoint",
    "Verif.Dem.c282_complete_partial",
    "Verif.Dem.c282_gap_violated"
   ],
   "note": "Coarse cells start at the rounded-down position of their corner and have the rounded-down size: with 30 m pixels and the fixed 5000 m cells, two of each 500 rows are not counted in any cell (c282_gap_violated). Exact arithmetic for the conversion of positions."
  },
  {
   "property": "C283",
   "status": "proved",
   "theorems": [
    "Verif.Dem.c283_flag"
   ],
   "note": "The threshold 0.6 is the decimal number; the optical depth is rational."
  },
  {
   "property": "C284",
   "status": "proved",
   "theorems": [
    "Verif.Args.c284_accepted",
    "Verif.Args.c284_count",
    "Verif.Args.c284_stops"
   ],
   "note": "getopt is a model of the GNU C library (arguments are permuted, -- ends the options). An argument that equals the konami code does not come back (outside of the statements)."
  },
  {
   "property": "C285",
   "status": "partial",
   "theorems": [
    "Verif.Args.c285_accepted_partial",
    "Verif.Args.c285_format_violated"
   ],
   "note": "The code never sets the variable that records -o: -f is refused even with -o, so that no other format than GPKG can be written (c285_format_violated, for every command line)."
  },
  {
   "property": "C286",
   "status": "proved",
   "theorems": [
    "Verif.Args.c286_accepted",
    "Verif.Args.c286_refused",
    "Verif.Args.c286_positive"
   ],
   "note": "Numbers are read by the model of atof (Libc), rounding is any function; the defaults are the decimal numbers."
  },
  {
   "property": "C287",
   "status": "partial",
   "theorems": [
    "Verif.Args.c287_contains",
    "Verif.Args.c287_inside_partial",
    "Verif.Args.c287_edge_violated"
   ],
   "note": "Points on the left edge of a tile right of the origin are reported in the tile to the left, one column behind its last one (c287_edge_violated); inside of tiles the property holds. Rational numbers."
  },
  {
   "property": "C288",
   "status": "partial",
   "theorems": [
    "Verif.Args.c288_accepted",
    "Verif.Args.c288_positive",
    "Verif.Args.c288_refused_partial",
    "Verif.Args.c288_sizes_violated"
   ],
   "note": "Three or more numbers for the tile size read an element behind the array (c288_sizes_violated)."
  },
  {
   "property": "C289",
   "status": "proved",
   "theorems": [
    "Verif.Tscore.c289_refused",
    "Verif.Tscore.c289_probability",
    "Verif.Tscore.c289_exact",
    "Verif.Tscore.c289_side"
   ],
   "note": "Real numbers (the code computes in float and double). The probability is the closed form of the distribution for 1 to 4 degrees of freedom (Spec.cdf). For 3 and more degrees of freedom it is not shown that the iteration ends."
  },
  {
   "property": "C290",
   "status": "proved",
   "theorems": [
    "Verif.Tscore.c290_left",
    "Verif.Tscore.c290_right",
    "Verif.Tscore.c290_two",
    "Verif.Tscore.c290_few"
   ],
   "note": "Real numbers; a standard error of 0 (division by zero) is outside of the statement."
  },
  {
   "property": "C291",
   "status": "partial",
   "theorems": [
    "Verif.Plog.c291_text_partial",
    "Verif.Plog.c291_vector_violated",
    "Verif.Plog.c291_cut_violated",
    "Verif.Plog.c291_size"
   ],
   "note": "Parameters with two or more values (the tile ranges of each run) read past the end of an array of one character that holds a blank without terminator (c291_vector_violated, for every such parameter list); a text that exceeds the slot within the last value is cut without a message (c291_cut_violated). Texts with at most one value per parameter and fewer than 16384 characters are complete."
  },
  {
   "property": "C292",
   "status": "partial",
   "theorems": [
    "Verif.Poi.c292_weights",
    "Verif.Poi.c292_widths",
    "Verif.Poi.c292_inside",
    "Verif.Poi.c292_interior_partial",
    "Verif.Poi.c292_zero_violated",
    "Verif.Poi.c292_corner_violated"
   ],
   "note": "The first pass ends one row and one column early: the row before the lower border and the column before the right border are zero for every image (c292_zero_violated); in the lower right corner the window is cut by half of the filter, so that the result does not depend on the pixels there (c292_corner_violated). Elsewhere inside, the pixel is the weighted sum."
  },
  {
   "property": "C293",
   "status": "proved",
   "theorems": [
    "Verif.Poi.c293_points",
    "Verif.Poi.c293_enough",
    "Verif.Poi.c293_fresh",
    "Verif.Poi.c293_search",
    "Verif.Poi.c293_none",
    "Verif.Poi.c293_image"
   ],
   "note": "Exact arithmetic in any ordered field (float in the code). Images with fewer than seven rows or columns are outside of the statement."
  },
  {
   "property": "C294",
   "status": "partial",
   "theorems": [
    "Verif.Find.c294_found",
    "Verif.Find.c294_only",
    "Verif.Find.c294_none",
    "Verif.Find.c294_long_partial",
    "Verif.Find.c294_exact_violated",
    "Verif.Find.c294_leak_violated",
    "Verif.Find.c294_starts",
    "Verif.Find.c294_count"
   ],
   "note": "If directory, slash and name have exactly the length of the buffer, the cut name stays in the buffer and the directory open (c294_exact_violated). A search by the start of the name does not close the directory if nothing is found (c294_leak_violated)."
  },
  {
   "property": "C295",
   "status": "proved",
   "theorems": [
    "Verif.Find.c295_mission",
    "Verif.Find.c295_order",
    "Verif.Find.c295_closed"
   ],
   "note": ""
  },
  {
   "property": "C296",
   "status": "partial",
   "theorems": [
    "Verif.Find.c296_enter",
    "Verif.Find.c296_safe",
    "Verif.Find.c296_empty",
    "Verif.Find.c296_tile_compact",
    "Verif.Find.c296_tile_old",
    "Verif.Find.c296_image_partial",
    "Verif.Find.c296_images_partial",
    "Verif.Find.c296_aux_violated",
    "Verif.Find.c296_dem"
   ],
   "note": "A file such as an .aux.xml beside the image is taken for the image if it is listed first (c296_aux_violated); proved for folders in which only images have .jp2 in their names."
  },
  {
   "property": "C297",
   "status": "proved",
   "theorems": [
    "Verif.Label.c297_python",
    "Verif.Label.c297_r",
    "Verif.Label.c297_tsa"
   ],
   "note": ""
  },
  {
   "property": "C298",
   "status": "partial",
   "theorems": [
    "Verif.Label.c298_bands_partial",
    "Verif.Label.c298_stale_violated",
    "Verif.Label.c298_empty_violated",
    "Verif.Label.c298_r_partial",
    "Verif.Label.c298_released_violated"
   ],
   "note": "A first word of eight characters that is not a date gets the date of the band before, for the first band the contents of uninitialized memory (c298_stale_violated); a name without a word is a null pointer access (c298_empty_violated); in Python the text is read after its object has been released (c298_released_violated)."
  },
  {
   "property": "C299",
   "status": "proved",
   "theorems": [
    "Verif.Pyr.c299_finest",
    "Verif.Pyr.c299_layers",
    "Verif.Pyr.c299_masked",
    "Verif.Pyr.c299_blank"
   ],
   "note": ""
  },
  {
   "property": "C300",
   "status": "partial",
   "theorems": [
    "Verif.Pyr.c300_step",
    "Verif.Pyr.c300_full",
    "Verif.Pyr.c300_monotone",
    "Verif.Pyr.c300_land",
    "Verif.Pyr.c300_depth",
    "Verif.Pyr.c300_range_partial",
    "Verif.Pyr.c300_range_violated"
   ],
   "note": "The product of the scales leaves out the top layer, so that dense matching enlarges its windows less than depth-first matching (40 instead of 57 pixels), for any number of layers (c300_range_violated)."
  },
  {
   "property": "C301",
   "status": "partial",
   "theorems": [
    "Verif.Fetch.c301_complete_partial",
    "Verif.Fetch.c301_interrupted_violated",
    "Verif.Fetch.c301_killed_violated",
    "Verif.Fetch.c301_stuck_violated"
   ],
   "note": "Blocks of an interrupted transfer, or of a program that was killed, stay on disc and count as the file in all later runs (c301_interrupted_violated, c301_killed_violated); if it cannot be opened, every later run ends at it (c301_stuck_violated)."
  },
  {
   "property": "C302",
   "status": "proved",
   "theorems": [
    "Verif.Fetch.c302_kept",
    "Verif.Fetch.c302_tries",
    "Verif.Fetch.c302_retry",
    "Verif.Fetch.c302_gone",
    "Verif.Fetch.c302_never"
   ],
   "note": ""
  },
  {
   "property": "C303",
   "status": "proved",
   "theorems": [
    "Verif.Fetch.c303_pattern",
    "Verif.Fetch.c303_listed",
    "Verif.Fetch.c303_unlisted",
    "Verif.Fetch.c303_untouched",
    "Verif.Fetch.c303_data"
   ],
   "note": ""
  },
  {
   "property": "C304",
   "status": "partial",
   "theorems": [
    "Verif.Fetch.c304_header_partial",
    "Verif.Fetch.c304_newline_violated",
    "Verif.Fetch.c304_long",
    "Verif.Fetch.c304_missing",
    "Verif.Fetch.c304_unset_violated"
   ],
   "note": "The newline after the key is sent (c304_newline_violated); without environment variable and login, an unset file name is read (c304_unset_violated)."
  },
  {
   "property": "C305",
   "status": "proved",
   "theorems": [
    "Verif.Mdcp.c305_copied",
    "Verif.Mdcp.c305_refused",
    "Verif.Mdcp.c305_last"
   ],
   "note": ""
  },
  {
   "property": "C306",
   "status": "partial",
   "theorems": [
    "Verif.Equi.c306_grid_partial",
    "Verif.Equi.c306_single",
    "Verif.Equi.c306_glance_violated"
   ],
   "note": "GLANCE7 with the code of a continent starts no datacube: the names are compared with a table that has GLANCE-AF instead of GLANCE7-AF (glance7-ll.c:44-45 against cube-ll.c:541-549)."
  },
  {
   "property": "C307",
   "status": "proved",
   "theorems": [
    "Verif.Equi.c307_lines",
    "Verif.Equi.c307_distinct"
   ],
   "note": ""
  },
  {
   "property": "C308",
   "status": "partial",
   "theorems": [
    "Verif.Equi.c308_written",
    "Verif.Equi.c308_kept",
    "Verif.Equi.c308_nodir",
    "Verif.Equi.c308_killed_violated",
    "Verif.Equi.c308_denied_violated"
   ],
   "note": "A dictionary that is cut by a crash is never completed. If it cannot be written, the program goes on with a datacube that was freed (return is missing at equi7-ll.c:351-354)."
  },
  {
   "property": "C309",
   "status": "partial",
   "theorems": [
    "Verif.Equi.c309_written_partial",
    "Verif.Equi.c309_again",
    "Verif.Equi.c309_long",
    "Verif.Equi.c309_incomplete_violated",
    "Verif.Equi.c309_continents_violated",
    "Verif.Equi.c309_mixed_violated"
   ],
   "note": "A failing write leaves the products before it. Images of two continents have the same file name: the second one fails, or is combined with the first one."
  },
  {
   "property": "C310",
   "status": "proved",
   "theorems": [
    "Verif.Metric.c310_txt",
    "Verif.Metric.c310_txt_order",
    "Verif.Metric.c310_txt_unknown",
    "Verif.Metric.c310_lsm",
    "Verif.Metric.c310_lsm_order",
    "Verif.Metric.c310_lsm_unknown"
   ],
   "note": ""
  },
  {
   "property": "C311",
   "status": "proved",
   "theorems": [
    "Verif.Side.c311_terra",
    "Verif.Side.c311_aqua",
    "Verif.Side.c311_untouched"
   ],
   "note": ""
  },
  {
   "property": "C312",
   "status": "partial",
   "theorems": [
    "Verif.Side.c312_accepted_partial",
    "Verif.Side.c312_rejected",
    "Verif.Side.c312_nan_violated"
   ],
   "note": "For finite values both directions are proved (c312_accepted_partial), and rejection with any other content (c312_rejected); violated for NaN: both comparisons are false, so that a field with the text nan is accepted (c312_nan_violated)."
  },
  {
   "property": "C313",
   "status": "proved",
   "theorems": [
    "Verif.Side.c313_objective"
   ],
   "note": "The search for the minimum is done by GSL; the theorem is about the function handed to it. Values are not rounded."
  },
  {
   "property": "C314",
   "status": "proved",
   "theorems": [
    "Verif.Grid.c314_grid",
    "Verif.Grid.c314_pixel"
   ],
   "note": ""
  },
  {
   "property": "C315",
   "status": "proved",
   "theorems": [
    "Verif.Patch.c315_mean"
   ],
   "note": ""
  },
  {
   "property": "C316",
   "status": "proved",
   "theorems": [
    "Verif.Elev.c316_height",
    "Verif.Elev.c316_bounds"
   ],
   "note": "The minimum is searched by GSL, a parameter of the model; the bounds assume that it stays in its interval."
  },
  {
   "property": "C317",
   "status": "proved",
   "theorems": [
    "Verif.Elev.c317_slope",
    "Verif.Elev.c317_recovers"
   ],
   "note": "Real arithmetic (float in the code)."
  },
  {
   "property": "C318",
   "status": "partial",
   "theorems": [
    "Verif.Own.c318_2d",
    "Verif.Own.c318_2d_count",
    "Verif.Own.c318_2dc_partial",
    "Verif.Own.c318_2dc_violated",
    "Verif.Own.c318_3d",
    "Verif.Own.c318_table",
    "Verif.Own.c318_twice_partial",
    "Verif.Own.c318_twice_violated"
   ],
   "note": "Violated: free_2DC of an array without rows reads beyond it (c318_2dc_violated); free_table does not reset the pointers to names, a second call frees them again (c318_twice_violated). No call in the code frees a table twice."
  }
 ]
}