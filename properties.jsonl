{"id": "C01", "title": "Day-of-year and month/day conversions are mutually inverse", "statement": "For every day of the 365-day year, converting a day-of-year to month and day and back yields the same day-of-year; for every valid month/day of a non-leap calendar, converting to day-of-year and back yields the same month and day, and the three converters (month+day, month only, day only) agree.", "quantifier": "every day-of-year 1..365 and every valid (month, day) pair", "why_tests_cant": "needs the whole domain of both directions at once, including all month boundaries, and agreement of three separately coded threshold tables", "anchors": ["src/modules/cross-level/date-cl.c: doy2md, doy2m, doy2d, md2doy"]}
{"id": "C02", "title": "Continuous-day number and calendar date are mutually inverse", "statement": "For every year and every valid month/day the continuous day number computed from the date converts back to exactly this date, day-of-year and year; conversely each positive continuous day number converts to a valid date that converts back to it, including the 31 December case where the remainder is zero.", "quantifier": "all years and all valid dates; all positive continuous day numbers", "why_tests_cant": "unbounded years; tests sample a few dates and miss the remainder-zero day", "anchors": ["src/modules/cross-level/date-cl.c: date2ce, doy2ce, ce2date, ce2doy, ce2year"]}
{"id": "C03", "title": "Continuous day numbers respect chronology", "statement": "Of two valid dates, the earlier one (year, then month, then day) always gets the strictly smaller continuous day number.", "quantifier": "all pairs of valid dates in all years", "why_tests_cant": "a universally quantified order embedding over pairs", "anchors": ["src/modules/cross-level/date-cl.c: date2ce, md2doy"]}
{"id": "C04", "title": "A date record stays self-consistent under every setter", "statement": "After any sequence of date setters applied with valid arguments, starting from a completely set date, the day-of-year, week, month, quarter and continuous day fields of the record all describe the same date.", "quantifier": "all finite sequences of setter calls with valid arguments", "why_tests_cant": "history property over unboundedly many calls", "anchors": ["src/modules/cross-level/date-cl.c: set_date, set_date_year, set_date_month_day, set_date_ce, set_date_doy, set_date_week, set_date_month, set_date_quarter", "src/modules/cross-level/datesys-cl.c: date_set, date_plus, date_minus"]}
{"id": "C05", "title": "Reading a date from a file name accepts exactly the valid YYYYMMDD prefixes", "statement": "A string whose first token is an 8-character date within the supported range yields that date and SUCCESS; every other string yields CANCEL together with the documented dummy date.", "quantifier": "all strings", "why_tests_cant": "unbounded input space; the dummy-date promise concerns every rejected input", "anchors": ["src/modules/cross-level/date-cl.c: date_from_string"]}
{"id": "C06", "title": "Seconds are decomposed into calendar fields without loss", "statement": "Decomposing a number of seconds into years, 30-day months, days, hours, minutes and seconds, and summing up the fields again with their nominal lengths, gives the original number.", "quantifier": "all non-negative second counts", "why_tests_cant": "unbounded; the wrong year constant only shows beyond 30 years", "anchors": ["src/modules/cross-level/date-cl.c: set_secs"]}
{"id": "C07", "title": "Quality flags can be set and read independently", "statement": "Writing a value that fits into its flag and reading the flag back yields the value, and no other flag changes; a sequence of writes to different flags may be reordered freely.", "quantifier": "all 16-bit QAI values, all flags, all fitting values", "why_tests_cant": "2^16 states times all flag pairs and values; non-interference is universally quantified", "anchors": ["src/modules/cross-level/quality-cl.c: set_qai, get_qai, set_*/get_* accessors", "src/modules/cross-level/enum-cl.h: _QAI_BIT_*"]}
{"id": "C08", "title": "Merging quality information of two overlapping scenes keeps the most restrictive quality", "statement": "Merging two QAI values does not depend on the order of the two scenes, merging a value with itself changes nothing, repeated merging is associative, and each flag of the result is the more restrictive of the two inputs (nodata only if both are nodata).", "quantifier": "all pairs and triples of 16-bit QAI values", "why_tests_cant": "2^32 and 2^48 input combinations", "anchors": ["src/modules/cross-level/quality-cl.c: merge_qai_from_values"]}
{"id": "C09", "title": "Pixel screening rejects exactly the configured conditions", "statement": "A pixel observation is used if and only if the processing mask allows it and none of the quality conditions selected by the user is present; selecting additional conditions can only remove observations; each pixel is decided on its own, so the number of threads cannot change the result.", "quantifier": "all QAI values, all rule selections, all masks and image sizes", "why_tests_cant": "full product space of QAI states and rule sets; schedule independence", "anchors": ["src/modules/higher-level/quality-hl.c: use_this_pixel, screen_qai"]}
{"id": "C10", "title": "Noise screening terminates and only ever removes observations in its outlier phase", "statement": "For every time series and thresholds the outlier removal loop stops after at most as many rounds as there are observations; an observation removed as outlier is never restored, nodata observations and masked pixels are never activated.", "quantifier": "all time series lengths, dates, values and thresholds", "why_tests_cant": "termination and history property over all series", "anchors": ["src/modules/higher-level/quality-hl.c: screen_noise"]}
{"id": "C11", "title": "The coordinate queue is a bounded FIFO", "statement": "Any sequence of enqueue/dequeue calls on a fresh queue of size n behaves like a first-in-first-out list of capacity n-1: dequeue returns the oldest element still inside, and enqueue fails exactly when n-1 elements are inside. Coordinates within the 16-bit range are returned unchanged.", "quantifier": "all queue sizes and all finite call sequences", "why_tests_cant": "unbounded histories with wrap-around", "anchors": ["src/modules/cross-level/queue-cl.c: create_queue, enqueue, dequeue"]}
{"id": "C12", "title": "Greyscale flood fill computes the true fill level", "statement": "When greyscale reconstruction succeeds, each pixel of the result holds the lowest level at which it can be reached from the image border: the minimum over all 8-connected paths from the border of the maximum mask value on the path; it never accesses memory outside the image.", "quantifier": "all images of up to 32768 rows and columns (the queue holds 16-bit coordinates), and all memory contents of the queue", "why_tests_cant": "quantifies over all images and all paths; fixpoint reasoning", "anchors": ["src/modules/cross-level/imagefuns-cl.c: greyscale_reconstruction_", "src/modules/cross-level/queue-cl.c"]}
{"id": "C13", "title": "The distance transform is the exact Euclidean distance", "statement": "Each pixel of the distance transform is the (integer part of the) Euclidean distance to the nearest TRUE pixel of the image.", "quantifier": "all binary images with nx columns and ny rows for which (nx+2ny)^2+nx^2 fits into a 32-bit int (e.g. all images up to 14654 x 14654), with at least one TRUE pixel; images without a TRUE pixel separately", "why_tests_cant": "global minimum over all pixels, for every image", "anchors": ["src/modules/cross-level/imagefuns-cl.c: dist_transform_, dt_dfun, dt_Sep"]}
{"id": "C14", "title": "Buffering only grows a mask, stays inside the image and is schedule independent", "statement": "Buffering by radius r keeps all TRUE pixels, adds only pixels at most r columns and rows away from a TRUE pixel, writes only inside the image, and gives the same image for every distribution of the rows to threads.", "quantifier": "all binary images, radii and thread schedules", "why_tests_cant": "all images/schedules; the border behaviour only shows near the image edge", "anchors": ["src/modules/cross-level/imagefuns-cl.c: buffer_"]}
{"id": "C15", "title": "Majority filling gives one well-defined result", "statement": "Majority filling sets precisely those FALSE pixels with at least five TRUE neighbours in the input image; the result does not depend on the number of threads.", "quantifier": "all binary images and thread schedules", "why_tests_cant": "race conditions do not show up deterministically in tests", "anchors": ["src/modules/cross-level/imagefuns-cl.c: majorfill_"]}
{"id": "C16", "title": "Each coordinate belongs to exactly one tile and the reported tile contains it", "statement": "For each coordinate the tile search terminates and reports a tile whose extent contains the coordinate, with the reported upper-left corner being the corner of this tile; points in the interior of a tile are assigned to this tile.", "quantifier": "all coordinates, all origins and tile sizes", "why_tests_cant": "real-valued unbounded domain, tile boundaries", "anchors": ["src/modules/cross-level/cube-cl.c: tile_find", "src/main/aux-level/force-tile-finder.c"]}
{"id": "C17", "title": "Grid alignment snaps to the grid", "statement": "Aligning a coordinate to the grid returns a grid point that is less than one resolution step away from it, on the outer side.", "quantifier": "all coordinates, grid origins and resolutions", "why_tests_cant": "real-valued unbounded domain; exact grid points are a boundary case", "anchors": ["src/modules/cross-level/cube-cl.c: tile_align"]}
{"id": "C18", "title": "Exactly the requested tiles are processed", "statement": "The list of active tiles contains each tile of the processing extent that is on the allow-list (all tiles, if no list is used) exactly once, row by row, and no other tile; an empty selection is reported as a failure.", "quantifier": "all extents and allow-lists", "why_tests_cant": "unbounded extents; exactly-once statement", "anchors": ["src/modules/cross-level/tile-cl.c: tile_active, tile_allowlisted, tile_readlist"]}
{"id": "C19", "title": "A datacube definition survives writing and reading", "statement": "Reading back a written datacube definition gives the same definition; any file with an unknown tag or with a missing tag is rejected.", "quantifier": "all datacube definitions and all definition files", "why_tests_cant": "all files, in particular all malformed ones", "anchors": ["src/modules/cross-level/cube-cl.c: write_datacube_def, read_datacube_def"]}
{"id": "C20", "title": "An existing datacube definition is never overwritten", "statement": "Whatever the interleaving of several processes that write a datacube definition to the same directory, once one definition is in place it is never replaced by a different one, and the lock is always released.", "quantifier": "all interleavings of any number of writers, all failure points", "why_tests_cant": "concurrency and failure points", "anchors": ["src/modules/cross-level/cube-cl.c: write_datacube_def, copy_datacube_def", "src/modules/cross-level/lock-cl.c"]}
{"id": "C21", "title": "The streaming pipeline reads, computes and writes every processing unit exactly once", "statement": "For any number of processing units the main loop terminates; each unit is read exactly once, then computed exactly once in a later iteration, then written exactly once in a later iteration, units are handled in ascending order, and no other unit is touched.", "quantifier": "all numbers of processing units and products", "why_tests_cant": "history property over all loop lengths", "anchors": ["src/modules/higher-level/progress-hl.c: init_progess, progress, read_this_chunk, compute_this_chunk, write_this_chunk", "src/main/higher-level/force-higher-level.c: main", "src/modules/higher-level/tasks-hl.c"]}
{"id": "C22", "title": "The three pipeline stages never touch the same data concurrently", "statement": "In every iteration of the streaming loop the units being read, computed and written are pairwise different, so that whatever the order in which the three threads execute, the result is that of the sequential program; all accesses are within the allocated slots.", "quantifier": "all interleavings of the three stages in all iterations", "why_tests_cant": "data races are schedule dependent", "anchors": ["src/main/higher-level/force-higher-level.c: main", "src/modules/higher-level/progress-hl.c", "src/modules/higher-level/tasks-hl.c"]}
{"id": "C23", "title": "Processing units enumerate all tile/chunk pairs", "statement": "The mapping from processing unit number to (tile, chunk column, chunk row) hits each chunk of each active tile exactly once, tile by tile and row by row.", "quantifier": "all numbers of tiles and chunks", "why_tests_cant": "single-precision division is only inexact for large unit numbers; bijection over unbounded ranges", "anchors": ["src/modules/higher-level/progress-hl.c: forward_processing_unit, chunk_layout"]}
{"id": "C24", "title": "The exit code reports missing input or output", "statement": "The program fails because of missing I/O if and only if the user asked for it and there was no input, or there was no output from a module that is expected to write output.", "quantifier": "all byte counts and parameter combinations", "why_tests_cant": "full decision table over unbounded byte counts", "anchors": ["src/modules/higher-level/tasks-hl.c: handle_no_io"]}
{"id": "C25", "title": "Cropping returns the centre of the image", "statement": "Cropping an image by a radius returns exactly the pixels that are at least this number of pixels away from each side, unchanged and at the right place, for every data type.", "quantifier": "all images, radii and data types", "why_tests_cant": "all sizes; the data types are separately coded", "anchors": ["src/modules/cross-level/brick_base-cl.c: crop_brick"]}
{"id": "C26", "title": "Writing all chunks assembles the complete image", "statement": "After all chunks of a tile have been written in processing order, the output file contains each chunk's pixels at its place, independent of whatever file existed before.", "quantifier": "all chunk layouts, pixel values, previous file contents and subsets of skipped chunks", "why_tests_cant": "history property with pre-existing state", "anchors": ["src/modules/cross-level/brick_io-cl.cpp: write_brick", "src/modules/higher-level/tasks-hl.c: output_higher_level"]}
{"id": "C27", "title": "Mosaicking into an existing product loses no valid pixel", "statement": "In update and merge modes a pixel that was valid in the file or is valid in the new data is valid afterwards: update prefers the new value, merge averages, QAI merge combines the flags; where only one is valid that value is kept.", "quantifier": "all pixel values, modes and sequences of writes", "why_tests_cant": "all sequences of overlapping writes", "anchors": ["src/modules/cross-level/brick_io-cl.cpp: write_brick"]}
{"id": "C28", "title": "A failed write does not leave the output locked", "statement": "After write_brick returns, with success or failure, no lock it created is left behind.", "quantifier": "all failure points", "why_tests_cant": "each failure point is a separate path that tests do not provoke", "anchors": ["src/modules/cross-level/brick_io-cl.cpp: write_brick", "src/modules/cross-level/lock-cl.c"]}
{"id": "C29", "title": "Bounded string copies never overflow and never truncate", "statement": "Copying or concatenating strings into a buffer either gives exactly the full text including terminator inside the buffer, or ends the program; it never writes outside the buffer and never truncates.", "quantifier": "all strings and buffer sizes", "why_tests_cant": "memory safety over all sizes", "anchors": ["src/modules/cross-level/string-cl.c: copy_string, concat_string_2, concat_string_3, overwrite_string_part"]}
{"id": "C30", "title": "String replacement replaces the first occurrence and else leaves the text alone", "statement": "replace_string replaces precisely the first occurrence of the search text; if there is none the source text is copied unchanged.", "quantifier": "all source, search, replacement strings and buffer sizes", "why_tests_cant": "all strings; size_t wrap-around", "anchors": ["src/modules/cross-level/string-cl.c: replace_string"]}
{"id": "C31", "title": "Growing a string vector keeps its content", "statement": "Filling one element of a string vector, whatever its position and length, stores exactly this text and leaves all other elements unchanged, for any sequence of fills.", "quantifier": "all vectors and fill sequences", "why_tests_cant": "history property with re-allocation", "anchors": ["src/modules/cross-level/string-cl.c: fill_string_vector, re_alloc_string_vector, alloc_string_vector", "src/modules/cross-level/alloc-cl.c: re_alloc_2DC"]}
{"id": "C32", "title": "Re-allocation keeps the common part and zeroes the rest", "statement": "After re-allocating a 1-, 2- or 3-dimensional array, all elements inside both the old and new extents are unchanged and all new elements are zero.", "quantifier": "all old and new extents and contents", "why_tests_cant": "all shapes incl. growing one and shrinking another dimension", "anchors": ["src/modules/cross-level/alloc-cl.c: re_alloc, re_alloc_2D, re_alloc_2DC, re_alloc_3D"]}
{"id": "C33", "title": "Path decomposition is lossless", "statement": "Directory name and base name of a path are the parts before and after its last slash (trailing slashes ignored); base name without extension and extension concatenate to the base name.", "quantifier": "all paths", "why_tests_cant": "unbounded strings, paths without slash, dot or only slashes", "anchors": ["src/modules/cross-level/dir-cl.c: basename_with_ext, basename_without_ext, directoryname, extension"]}
{"id": "C34", "title": "Parameter files: the first occurrence of each tag defines the parameter, nothing else matters", "statement": "After parsing a file, each registered parameter has the values of the first line with its tag that carries a value; unknown tags, comments, and the order of different parameters do not matter; a parameter is unset iff there is no such line.", "quantifier": "all parameter files and registries", "why_tests_cant": "all files; order independence", "anchors": ["src/modules/cross-level/param-cl.c: parse_parameter, length_par, parse_char_seq"]}
{"id": "C35", "title": "Parameter check passes iff every parameter is set, complete and in range", "statement": "The parameter check succeeds exactly if each registered parameter has been set, has values, has the expected number of values and each value passes its check.", "quantifier": "all registries and values", "why_tests_cant": "all combinations", "anchors": ["src/modules/cross-level/param-cl.c: check_parameter, check_int_par, check_enum_par, check_float_par, check_date_par"]}
{"id": "C36", "title": "One-pass statistics equal their textbook definitions", "statement": "The one-pass recurrences for mean, variance, covariance, skewness and kurtosis yield after every number of samples exactly the mean and the centred moment sums of the samples seen (in exact arithmetic), in any order of the samples.", "quantifier": "all sample sequences", "why_tests_cant": "unbounded sequences; induction", "anchors": ["src/modules/cross-level/stats-cl.c: var_recurrence, cov_recurrence, covar_recurrence, skew_recurrence, kurt_recurrence, variance, covariance"]}
{"id": "C37", "title": "Mode, unique count and histogram are exact", "statement": "The mode is a value of maximal frequency, the number of unique values is the number of distinct values, the histogram lists each distinct value once with its number of occurrences.", "quantifier": "all non-empty integer samples", "why_tests_cant": "all multisets; adjacency scans after sorting", "anchors": ["src/modules/cross-level/stats-cl.c: mode, n_uniq, histogram"]}
{"id": "C38", "title": "Linear interpolation uses the neighbouring valid observations", "statement": "For each interpolation date the result is the observation at that date if there is a valid one, else the linear interpolation of the last valid observation before and the first valid one after, else the single available neighbour, else nodata; it always lies between the two neighbours. The search shortcut carried over between dates does not change the result.", "quantifier": "all sorted time series and sorted interpolation dates", "why_tests_cant": "all series; the shortcut is a loop-carried optimisation", "anchors": ["src/modules/higher-level/interpolate-hl.c: interpolate_linear"]}
{"id": "C39", "title": "Moving average uses exactly the observations in the window", "statement": "For each interpolation date the result is the mean of all valid observations at most the window half-width away, nodata if there is none; the carried-over search start does not change it.", "quantifier": "all sorted time series, dates and widths", "why_tests_cant": "loop-carried optimisation over all series", "anchors": ["src/modules/higher-level/interpolate-hl.c: interpolate_moving"]}
{"id": "C40", "title": "Kernel interpolation uses exactly the observations in each kernel window and stays inside the kernel table", "statement": "For each kernel the weighted sums run over exactly the valid observations within the kernel's cut-off, and each kernel table access is within bounds.", "quantifier": "all sorted time series, dates and kernel sets", "why_tests_cant": "loop-carried optimisation, memory safety", "anchors": ["src/modules/higher-level/interpolate-hl.c: interpolate_rbf, rbf_kernel"]}
{"id": "C41", "title": "Folding aggregates exactly the observations of the period", "statement": "Each folded value is the chosen statistic over exactly the valid interpolated values whose date is in the period, nodata if there is none; each valid value contributes to at most one period.", "quantifier": "all time series, periods and statistics", "why_tests_cant": "all series and groupings", "anchors": ["src/modules/higher-level/fold-hl.c: fold, tsa_fold"]}
{"id": "C42", "title": "Spectral temporal metrics describe the valid observations", "statement": "Minimum, maximum, range, count and average of a pixel are those of its valid values; nodata if there are none; the order of observations is irrelevant.", "quantifier": "all time series", "why_tests_cant": "all series and permutations", "anchors": ["src/modules/higher-level/stm-hl.c: tsa_stm"]}
{"id": "C43", "title": "Clear-sky observation windows partition the period and the gaps fill each window", "statement": "Each observation in the period belongs to exactly one window; the gaps between consecutive clear-sky dates of a window, including both window edges, add up to the window length, and the statistics reported are those of these gaps.", "quantifier": "all date ranges, step sizes and sorted observation dates", "why_tests_cant": "all calendars and sequences; window enumeration terminates", "anchors": ["src/modules/higher-level/cso-hl.c: clear_sky_observations, compile_cso"]}
{"id": "C44", "title": "Level 2 queue: each image ends with its own status under every schedule", "statement": "After parallel processing of a queue, each queued image is marked with the status of its own processing, other lines are unchanged, whatever the interleaving of the workers.", "quantifier": "all queue files, worker counts and interleavings", "why_tests_cant": "schedule quantification; path substring collisions", "anchors": ["bash/force-level2.sh: process_this_image"]}
{"id": "C45", "title": "Best-available-pixel compositing selects an admissible observation with the best score", "statement": "If there is at least one admissible observation, the composite takes an admissible observation whose total score is maximal (the earliest of those), else nodata; no data outside the time series are accessed.", "quantifier": "all time series of scores and settings", "why_tests_cant": "argmax over all series; extreme scores", "anchors": ["src/modules/higher-level/bap-hl.c: bap_compositing, water_score, parametric_score"]}
{"id": "C46", "title": "Each sample point is extracted exactly once", "statement": "Processing all chunks of all tiles extracts each sample located inside an active tile exactly once, from the pixel that contains it, and the feature, response and coordinate tables keep the same row order.", "quantifier": "all sample tables, chunk orders", "why_tests_cant": "history over all chunks; boundary coordinates", "anchors": ["src/modules/higher-level/sample-hl.c: sample_points, append_table", "src/modules/cross-level/cube-cl.c: tile_find"]}
{"id": "C47", "title": "Pixel conversion between resolutions stays inside the target", "statement": "A pixel converted to an image of another resolution that covers the same area lies inside the target image and spatially contains the upper-left corner of the source pixel.", "quantifier": "all sizes and resolutions with equal extent", "why_tests_cant": "real ratio, all pixels", "anchors": ["src/modules/cross-level/brick_base-cl.c: convert_brick_p2p, convert_brick_ji2p"]}
{"id": "C48", "title": "Table statistics describe the table", "statement": "Column minima, maxima and means of a table are those of its data, all rows have the same number of columns as the header.", "quantifier": "all tables", "why_tests_cant": "all tables, extreme values", "anchors": ["src/modules/cross-level/table-cl.c: read_table"]}
{"id": "C49", "title": "Text to whole number conversion accepts every number and gives its value", "statement": "Converting a text to a whole number fails, or gives the value of the decimal number the text stands for; every decimal number in the range of int is accepted, a number followed by anything else is refused.", "quantifier": "all texts", "why_tests_cant": "unbounded strings, all digit sequences", "anchors": ["src/modules/cross-level/string-cl.c: char_to_int"]}
{"id": "C50", "title": "The temporal window contains exactly the requested season", "statement": "A day of the year is used if and only if it lies in the requested day-of-year range, which extends over the turn of the year if its end is before its start; weeks, months and quarters are used iff they contain such a day, and the folded layers carry these periods in increasing order; an image is used iff its date is in the date range and its day in the season.", "quantifier": "all day-of-year ranges, all dates", "why_tests_cant": "all pairs of range limits incl. wrap-around; enumeration loops", "anchors": ["src/modules/higher-level/param-hl.c: parse_param_higher", "src/modules/higher-level/read-ard-hl.c: list_ard", "src/modules/higher-level/tsa-hl.c: compile_tsa"]}
{"id": "C51", "title": "Linear regression fits the least-squares line", "statement": "The slope and intercept computed from the one-pass estimates are those of the line with the smallest sum of squared residuals among all lines; the residuals add up to zero and R\u00b2 is the explained share of the variation and lies in [0,1] (in exact arithmetic).", "quantifier": "all samples with at least two different x values", "why_tests_cant": "optimality over all lines and all samples", "anchors": ["src/modules/cross-level/stats-cl.c: covar_recurrence, linreg_coefs, linreg_rsquared, linreg_predict"]}
{"id": "C52", "title": "Noise screening measures the deviation from linear interpolation", "statement": "The residual of an observation used by the noise filters is its absolute deviation from the linear interpolation between the bracketing observations at its date.", "quantifier": "all triples of observations with their dates", "why_tests_cant": "all values and dates; the integer division only shows for slopes below one unit per day", "anchors": ["src/modules/higher-level/quality-hl.c: screen_noise"]}
{"id": "C53", "title": "Composite pixels do not influence each other", "statement": "Each pixel of a best-available-pixel composite depends only on the observations of that pixel and the parameters, not on the pixels the same thread processed before; hence not on the number of threads or the schedule.", "quantifier": "all pixels, all sequences of pixels processed before by the thread, all schedules", "why_tests_cant": "the buffers are reused between pixels; a test sees one schedule", "anchors": ["src/modules/higher-level/level3-hl.c: level3", "src/modules/higher-level/bap-hl.c: parametric_score, bap_compositing"]}
{"id": "C54", "title": "The seasonal score meets the three requested values", "statement": "The seasonal (DOY) score with static targets equals the requested score on the target day, on the start and end day of the window for a Gaussian shape, falls monotonically with the distance from the target day, and the target days lie in the right year, also if the window crosses the turn of the year.", "quantifier": "all target days, scores, years and observation dates", "why_tests_cant": "a family of functions over dates; windows that cross the year are rarely tested", "anchors": ["src/modules/higher-level/bap-hl.c: compile_target_static, target_function, tscore"]}
{"id": "C55", "title": "Weighted compositing is a weighted mean of the admissible observations", "statement": "Without selection of a single best observation, each band of the composite is the mean of the admissible observations weighted with the total scores; it lies between the smallest and largest of them, and is nodata when there is none.", "quantifier": "all lists of observations with their scores, all numbers of bands", "why_tests_cant": "bounds hold for every multiset of observations", "anchors": ["src/modules/higher-level/bap-hl.c: bap_weighting"]}
{"id": "C56", "title": "Correlation scores are normalised", "statement": "The correlation of two observations lies in [-1,1], does not depend on their order, and the value used for an observation is the mean absolute correlation with all other comparable observations, between 0 and 1.", "quantifier": "all pixels, any number of observations and bands", "why_tests_cant": "an inequality over all vectors", "anchors": ["src/modules/higher-level/bap-hl.c: corr_matrix"]}
{"id": "C57", "title": "Accepted compositing parameters are usable", "statement": "Score weights in the documented range are accepted iff at least one is positive, the total weight is their sum, the number of years is odd, and the shape of the seasonal scoring function follows from the three requested scores.", "quantifier": "all weights, years and scores accepted by the parameter parser", "why_tests_cant": "all combinations of real parameters, including ties", "anchors": ["src/modules/higher-level/param-hl.c: parse_param_higher"]}
{"id": "C58", "title": "Rows and columns of an image keep their map coordinates", "statement": "The map coordinate reported for column j (row i) of an image is that of the left (upper) edge of this column (row), rows going from north to south; restricting an image to its active part keeps the map coordinates of all its rows and columns.", "quantifier": "all images, resolutions, rows and columns, active parts", "why_tests_cant": "a test checks one image; the error is proportional to the row number", "anchors": ["src/modules/cross-level/brick_base-cl.c: get_brick_x, get_brick_y", "src/modules/lower-level/meta-ll.c: parse_metadata_sentinel2"]}
{"id": "C59", "title": "Stratified sampling returns the requested number of samples per class", "statement": "The output of the stratified sampling contains, for each listed class, exactly the requested number of pixels of this class, or all pre-selected pixels if there are fewer; it contains only pixels of listed classes, no pixel twice, each at the centre of its pixel; which of the pre-selected pixels are kept depends on their random numbers only (the smallest are kept).", "quantifier": "all images, tables of sample sizes and random numbers", "why_tests_cant": "the result depends on random numbers and on the interplay of the classes in one table", "anchors": ["src/main/aux-level/force-stratified-sample.c: main"]}
{"id": "C60", "title": "Trend analysis is the least-squares regression of the valid values", "statement": "For every pixel inside the mask with at least three valid values, the bands of the trend product are the integer parts of mean, offset, slope, absolute and relative gain, R2, RMSE, mean and maximum absolute residual of the least-squares line of the valid values on time, the result of the t-test of the slope, and the numbers of valid and of all layers; all other pixels are nodata in all bands. Values that are given as continuous days (365 per year) yield mean and slope of the days of the year.", "quantifier": "all time series of 16-bit values with gaps, all aggregation periods, all nodata values, masks, tail types and critical values", "why_tests_cant": "the bands depend on the complete series and on every gap pattern; undefined quotients and conversions show up only for particular series", "anchors": ["src/modules/higher-level/trend-hl.c: trend, tsa_trend", "src/modules/cross-level/stats-cl.c: covar_recurrence, linreg_coefs, linreg_rsquared, linreg_predict, slope_significant"]}
{"id": "C61", "title": "Change detection reports the greatest decrease and describes the parts before and after it", "statement": "The change, aftereffect, trend product reports the greatest decrease (with the penalty option: of those that last, weighted by their persistence) from a valid value to the next valid one and its time (the first of several); the parts before and after the change make up the time series, each part is described by its regression line, the complete series as in the trend product, and the loss is the change in percent of the offset of the complete series.", "quantifier": "all time series with gaps, nodata values, masks and parameters", "why_tests_cant": "the position of the greatest change and the gap pattern around it range over all series", "anchors": ["src/modules/higher-level/trend-hl.c: cat, tsa_cat"]}
{"id": "C62", "title": "Standardization centres and scales the valid values and leaves the rest alone", "statement": "If standardization is requested, each valid value of a pixel inside the mask with at least two valid values is replaced by the integer part of its difference from the mean (centring) or of 10000 times that difference in standard deviations (normalization), limited to 16 bits; nodata values stay nodata, valid values stay valid, and all other pixels are unchanged.", "quantifier": "all time series, nodata values, masks and methods", "why_tests_cant": "depends on the values of the complete series; division by zero and collision with nodata only occur for particular series", "anchors": ["src/modules/higher-level/standardize-hl.c: standardize_timeseries, tsa_standardize"]}
{"id": "C63", "title": "Polarmetrics use every step: observed, interpolated between the nearest valid steps, or extended", "statement": "For every pixel inside the mask with at least one valid value, the value of each step of the series is the observed one, else the linear interpolation in time between the nearest valid steps before and after it, else the value of the nearest valid step; negative values count as 0. A pixel without valid value is nodata in all metrics and years.", "quantifier": "all interpolated time series, gap patterns, nodata values", "why_tests_cant": "gaps can be at any place and of any length, including both ends", "anchors": ["src/modules/higher-level/polar-hl.c: polar_ts"]}
{"id": "C64", "title": "Polarmetrics attribute each step to its own date", "statement": "The date that is used for a step (and reported if an event falls on it) is the date of that step, in days of 365-day years since the first year of the series.", "quantifier": "all days of the year, years, first dates and steps of the series, and all roundings of the intermediate results", "why_tests_cant": "the day goes through single-precision radians and back; the seven days that are lost are found only if all days are examined", "anchors": ["src/modules/higher-level/polar-hl.c: polar_coords, polar_ts", "src/modules/cross-level/date-cl.c: doy2ce", "src/modules/higher-level/tsa-hl.c: compile_ts_metadata"]}
{"id": "C65", "title": "Phenological years partition the time series", "statement": "Season s consists of the steps from the start of the phenological year (day of the year, derived from the average vector) in year s to the step before that day in year s+1; the seasons are written to different years of the product within the range of years.", "quantifier": "all starts of the year, first dates and steps", "why_tests_cant": "depends on the alignment of steps, first date and start of the year over the complete series", "anchors": ["src/modules/higher-level/polar-hl.c: identify_regular_seasons, polar_ts"]}
{"id": "C66", "title": "Phenological events are where the running total of the season reaches the thresholds, in order", "statement": "In each season, the start, middle and end of the growing season are the steps at which the running total of the values reaches the thresholds (shares of the total of the season), the peak is the greatest value between start and end, and the phenological year begins with the first positive value and ends with the first step after the season; dates and values of these events are reported, they are in chronological order, lengths are differences of dates, and a season without values is nodata.", "quantifier": "all time series, thresholds, seasons", "why_tests_cant": "depends on all values of a season; steep seasons and empty seasons are rare in samples", "anchors": ["src/modules/higher-level/polar-hl.c: accumulate_seasons, polar_ts"]}
{"id": "C67", "title": "Integrals, amplitudes and rates of a season are consistent", "statement": "The total integral is the sum of the season's values times the step; it is split at the base level (mean of the values at the begin and end of the phenological year) into seasonal and latent integral; rising and falling integrals are the sums of increases and decreases; the green integral is the part of the growing season above the mean of its start and end value; amplitudes are the peak over the respective levels; rates are mean and maximum of the increases (decreases) before (after) the middle; the shift of the start of the year is 0 without adaptation; all metrics are defined and fit 16 bits.", "quantifier": "all time series, thresholds, steps, seasons", "why_tests_cant": "sums over complete seasons; undefined quotients and overflows show up only for particular series", "anchors": ["src/modules/higher-level/polar-hl.c: polar_ts, identify_variable_seasons"]}
{"id": "C68", "title": "Combining sensors uses exactly their common bands, each read from the right place", "statement": "If a combination of sensors is accepted, the bands that are used are exactly those that all of them have, in the order of the first sensor; for every sensor each of them is read from the position it has in the definition of that sensor; the bands are those of the target sensor. A consistent combination is accepted.", "quantifier": "all sensor definitions, combinations and target sensors", "why_tests_cant": "definitions are user-editable files; every combination of sensors has its own mapping", "anchors": ["src/modules/higher-level/sensor-hl.c: retrieve_sensor, get_band_intersection, get_band_numbers_to_read, check_target_sensor"]}
{"id": "C69", "title": "Sensor configuration stays inside its memory for every submodule and option", "statement": "Whatever the definition files contain, setting up the sensors (with and without spectral adjustment, for main and secondary sensors) does not access memory outside its arrays or a missing text, and ends with success or an error.", "quantifier": "all sensor definitions, lists of sensors and options", "why_tests_cant": "out-of-bounds accesses on the heap are silent in most runs", "anchors": ["src/modules/higher-level/sensor-hl.c: retrieve_sensor, check_target_sensor, get_band_union", "src/modules/higher-level/param-hl.c: register_l2i, parse_param_higher"]}
{"id": "C70", "title": "Indices are accepted if and only if their bands are available, and only needed bands are kept", "statement": "A list of indices is accepted if every index is an available band, the unmixing, or defined with available bands, and an accepted list meets this. Afterwards the bands that are kept are exactly those some index is made of, in order, and for every sensor each is still read from its place.", "quantifier": "all definitions, lists of indices and sensor configurations", "why_tests_cant": "removing bands in place shifts three arrays; errors show up only for particular combinations", "anchors": ["src/modules/higher-level/index-parse-hl.c: retrieve_indices, get_required_bands, check_available_bands, remove_unused_bands"]}
{"id": "C71", "title": "Every accepted index is computed from the bands of its formula", "statement": "Every index that is accepted can be computed; its operands are the bands of its formula in the order of the formula, and for every sensor they were read from the position of that band in the file.", "quantifier": "all accepted combinations of sensors and indices", "why_tests_cant": "composes four mappings (definition, intersection, removal, domain lookup) over all combinations", "anchors": ["src/modules/higher-level/index-parse-hl.c: retrieve_indices", "src/modules/higher-level/index-compute-hl.c: tsa_spectral_index, band_for_index, check_nbands_for_index", "src/modules/higher-level/read-ard-hl.c: read_chunk", "misc/runtime-data/indices.json"]}
{"id": "C72", "title": "Normalised differences are exact up to truncation, in range, ordered and symmetric", "statement": "For all pairs of 16 bit reflectances a normalised difference index stores the integer part of 10000 (a-b)/(a+b) computed with an error below 0.002, within -10000..10000; it is nodata if and only if a+b is zero or the quotient is outside -1..1. It grows with the first and falls with the second band, changes sign when the bands are swapped, does not change if both are scaled, and is never mistaken for nodata for reflectances in 0..10000.", "quantifier": "all pairs of 16 bit values and all normalised difference indices", "why_tests_cant": "2^32 pairs of inputs with three roundings each; monotonicity relates pairs of runs", "anchors": ["src/modules/higher-level/index-compute-hl.c: index_differenced, tsa_spectral_index"]}
{"id": "C73", "title": "Indices with resistance terms store the documented formula", "statement": "EVI, SAVI, ARVI, SARVI store the integer part of 10000 times the documented formula with a small error, or nodata where its denominator is zero, for all 16 bit reflectances.", "quantifier": "all triples of 16 bit values", "why_tests_cant": "the quotient is unbounded near a zero denominator", "anchors": ["src/modules/higher-level/index-compute-hl.c: index_resistance, tsa_spectral_index"]}
{"id": "C74", "title": "Tasseled cap and continuum removal store the documented combination", "statement": "The tasseled cap components, the disturbance index and the continuum removed SWIR store the integer part of the documented linear combination with a small error for all 16 bit reflectances.", "quantifier": "all tuples of 16 bit values", "why_tests_cant": "six inputs with accumulated rounding", "anchors": ["src/modules/higher-level/index-compute-hl.c: index_tasseled, index_cont_remove, tsa_spectral_index"]}
{"id": "C75", "title": "kNDVI is the hyperbolic tangent of the squared NDVI", "statement": "kNDVI stores the integer part of 10000 tanh(NDVI^2) with an error below 0.1 within 0..10000, and nodata if and only if a band is not positive.", "quantifier": "all pairs of 16 bit values", "why_tests_cant": "a transcendental function of all pairs", "anchors": ["src/modules/higher-level/index-compute-hl.c: index_kernelized, tsa_spectral_index"]}
{"id": "C76", "title": "Red-edge ratios store the documented formula or are missing", "statement": "The red-edge ratio index (CIre) and the modified simple ratios (MSRre, MSRren) store the integer part of the scaled formula with a small error, and nodata where the denominator is zero or the result does not fit, for all 16 bit reflectances.", "quantifier": "all pairs of 16 bit values", "why_tests_cant": "the quotient is unbounded; square roots of negative numbers appear for few pairs only", "anchors": ["src/modules/higher-level/index-compute-hl.c: index_ratio_minus1, index_msrre, tsa_spectral_index"]}
{"id": "C77", "title": "Each date of an index series depends on its own unmasked observation only", "statement": "In an index time series the value of each date is the index of the bands of this date where the processing mask and the quality mask are set, and nodata elsewhere; changing other dates does not change it, and valid observations are not mistaken for missing ones.", "quantifier": "all time series, masks and indices", "why_tests_cant": "series have any length and any pattern of masks", "anchors": ["src/modules/higher-level/index-compute-hl.c: index_band, index_differenced, index_resistance, index_tasseled, index_kernelized, index_ratio_minus1, index_msrre, index_cont_remove"]}
{"id": "C78", "title": "Spectral unmixing ends for every spectrum", "statement": "The non-negative unmixing of M endmembers ends after at most M + 30 M^2 rounds for every spectrum, every set of endmembers and every floating point behaviour, including NaN and infinite values.", "quantifier": "all spectra, endmembers and arithmetics", "why_tests_cant": "an active set method can cycle for rare inputs; tests cannot show the absence of an endless loop", "anchors": ["src/modules/higher-level/index-compute-hl.c: index_unmixed"]}
{"id": "C79", "title": "Unmixed fractions are the best fit", "statement": "The fractions are not negative (if required) and no other admissible fractions reproduce the spectrum with a smaller squared error; a spectrum that is a mixture of the endmembers is reproduced.", "quantifier": "all spectra, endmembers, options and competing fractions", "why_tests_cant": "optimality compares with a continuum of alternatives", "anchors": ["src/modules/higher-level/index-compute-hl.c: index_unmixed"]}
{"id": "C80", "title": "Sum-to-one unmixing returns fractions that sum to one", "statement": "With the sum-to-one option the unmixed fractions sum to one.", "quantifier": "all spectra and endmembers", "why_tests_cant": "the sum depends on every spectrum; it is one for the mixtures a test would use", "anchors": ["src/modules/higher-level/index-compute-hl.c: index_unmixed", "docs/source/components/higher-level/tsa/index.rst"]}
{"id": "C81", "title": "The retained fraction is that of the selected endmember", "statement": "The stored value is 10000 times the fraction of the selected endmember, with shade normalization divided by one minus the shade fraction; endmembers that do not exist are refused when the parameters are read; normalized fractions of a mixture that sums to one sum to one.", "quantifier": "all fractions, endmember numbers and options", "why_tests_cant": "the division is by zero for shaded pixels only", "anchors": ["src/modules/higher-level/index-compute-hl.c: index_unmixed", "src/modules/higher-level/param-hl.c: register_tsa", "src/modules/higher-level/read-aux-hl.cpp: read_endmember"]}
{"id": "C82", "title": "Unmixing products are missing where the data are masked, and the RMSE is that of the bands", "statement": "Masked pixels and dates are nodata in the fraction and the RMSE product; elsewhere the RMSE is the root of the mean squared residual of the bands.", "quantifier": "all masks, spectra and fractions", "why_tests_cant": "depends on masks and options in combination", "anchors": ["src/modules/higher-level/index-compute-hl.c: index_unmixed"]}
{"id": "C83", "title": "Chunks are extended seamlessly", "statement": "When a chunk is processed with the pixels around it (texture, landscape metrics, ImproPhe), every surrounding pixel is the pixel of the image at that position, whichever chunk or tile it is in, and nodata where the tile does not exist. Results do not depend on how tiles are divided into chunks.", "quantifier": "all images, tilings, chunk sizes, radii, chunks, and sets of existing tiles", "why_tests_cant": "eight neighbours, each in one of several chunks and tiles; tests use one chunk layout", "anchors": ["src/modules/higher-level/read-ard-hl.c: add_chunks", "src/modules/higher-level/read-ard-hl.c: read_chunk"]}
{"id": "C84", "title": "The neighbouring tile's file is the same product of the neighbouring tile", "statement": "The file that is opened for a neighbouring tile has the path of the central file with the tile name replaced, independent of the neighbours that were read before.", "quantifier": "all paths and tile IDs", "why_tests_cant": "depends on directory names", "anchors": ["src/modules/higher-level/read-ard-hl.c: add_chunks"]}
{"id": "C85", "title": "Segmentation finds the connected components", "statement": "For every binary image the segmentation ends, and two set pixels get the same label if and only if they are connected by a path of neighbouring set pixels (eight neighbours). Labels are 1 to the number of segments, in the order of the first pixels of the segments; unset pixels get 0.", "quantifier": "all binary images of all sizes, with all shapes of segments and holes", "why_tests_cant": "contour tracing has no bound on its loop, and its correctness depends on the topology of segments and holes of any nesting", "anchors": ["src/modules/cross-level/imagefuns-cl.c: connectedcomponents_", "src/modules/cross-level/imagefuns-cl.c: ccl_tracer", "src/modules/cross-level/imagefuns-cl.c: ccl_contourtrace"]}
{"id": "C86", "title": "Objects are the segments with at least the minimum size", "statement": "When a binary image is turned into objects, the objects are exactly the segments with at least the minimum number of pixels, each with its own number starting from 1, and the reported sizes are their numbers of pixels. No array is accessed out of bounds.", "quantifier": "all binary images and minimum sizes", "why_tests_cant": "depends on the position of the segment in the image", "anchors": ["src/modules/cross-level/imagefuns-cl.c: binary_to_objects"]}
{"id": "C87", "title": "Landscape metrics exist exactly where they are requested", "statement": "Landscape metrics are computed exactly at the pixels that take part (processing mask, valid features) and belong to a sufficiently large patch of the class, or, when all pixels are requested, at all pixels that take part. Elsewhere they are nodata.", "quantifier": "all chunks, masks, thresholds, queries, patch sizes and parameters", "why_tests_cant": "depends on patches anywhere in the chunk", "anchors": ["src/modules/higher-level/lsm-hl.c: landscape_metrics"]}
{"id": "C88", "title": "Landscape metrics do not depend on the schedule", "statement": "The metrics of a pixel are the same for every distribution of pixels over threads and every order in which a thread visits its pixels; nothing is carried over from one pixel to the next, and the arrays of the threads are accessed within bounds.", "quantifier": "all chunks, parameters and schedules", "why_tests_cant": "the dynamic schedule of threads is not reproducible; stale entries would only matter for certain orders", "anchors": ["src/modules/higher-level/lsm-hl.c: landscape_metrics"]}
{"id": "C89", "title": "Landscape statistics are those of the class pixels in the kernel", "statement": "Mean, standard deviation, maximum, geometric mean and area are the statistics of the class pixels with a value in the kernel around the pixel (square or circle, cut at the border of the chunk); the area is limited to 32767. Every stored number is well defined.", "quantifier": "all chunks, kernel sizes and shapes, pixels and values", "why_tests_cant": "special cases depend on the number and sign of the values in the kernel", "anchors": ["src/modules/higher-level/lsm-hl.c: landscape_metrics", "src/modules/cross-level/stats-cl.c: var_recurrence"]}
{"id": "C90", "title": "Landscape patch metrics describe the patches in the kernel", "statement": "Number of patches, area-weighted mean patch area, edge density, effective mesh size, fractal dimension index and patch identifier are those of the patches (connected class pixels) in the kernel around the pixel, and every stored number is well defined and in range.", "quantifier": "all chunks, kernel sizes and shapes, pixels and configurations of patches", "why_tests_cant": "the configurations of patches in a kernel are unbounded, and rare ones divide by zero", "anchors": ["src/modules/higher-level/lsm-hl.c: landscape_metrics", "src/modules/cross-level/imagefuns-cl.c: binary_to_objects"]}
{"id": "C91", "title": "A classification is the majority of its models", "statement": "At every pixel that is not masked or excluded, the class that is written for a model set is one that is assigned by the largest number of models of that set. Masked and excluded pixels have nodata in all products.", "quantifier": "all model sets, numbers of models, predictions, votes, masks and features", "why_tests_cant": "the models of different sets share one list and one running index, and ties depend on all predictions", "anchors": ["src/modules/higher-level/ml-hl.c: machine_learning"]}
{"id": "C92", "title": "A regression is the mean of the models up to convergence", "statement": "The value that is written for a model set is the mean of the predictions of the models of that set, in their order, up to the first model (not before the third) that changes the mean by less than the convergence threshold, or of all models; it is scaled and clipped to 16 bits. The number of iterations is the number of models used and the uncertainty is the standard deviation of their predictions. Early convergence in one set does not affect the models used for the others.", "quantifier": "all model sets, numbers of models, predictions, thresholds and scaling factors", "why_tests_cant": "the predictions of the models and the position of convergence are arbitrary", "anchors": ["src/modules/higher-level/ml-hl.c: machine_learning", "src/modules/cross-level/stats-cl.c: var_recurrence"]}
{"id": "C93", "title": "Class probabilities are shares of the votes", "statement": "The probability of a class is the share of the votes of all trees of all models of the set for this class (in 1/10000, truncated); the probabilities of a set add up to 10000 up to truncation. The margin is the difference between the most and the second most probable class.", "quantifier": "all numbers of models, trees and classes, and all votes", "why_tests_cant": "all distributions of votes, with ties and rounding", "anchors": ["src/modules/higher-level/ml-hl.c: machine_learning", "src/modules/higher-level/read-aux-hl.cpp: read_machine_learner"]}
{"id": "C94", "title": "Library distances are the smallest mean differences", "statement": "The band of a spectral library holds the smallest mean absolute difference between the pixel and a spectrum of the library, over the features that are valid at the pixel (in units of the standard deviations in the library, times 1000, if the features are rescaled); the last band holds the smallest over all libraries. Masked and excluded pixels are nodata.", "quantifier": "all libraries, features, pixels and masks", "why_tests_cant": "arbitrary libraries; constant features and large distances are rare", "anchors": ["src/modules/higher-level/lib-hl.c: library_completeness", "src/modules/higher-level/read-aux-hl.cpp: read_libraries"]}
{"id": "C95", "title": "Composites exist exactly outside of the mask", "statement": "In a Level 3 composite every pixel inside the processing mask holds its composite, in any order of processing, and every pixel outside of the processing mask is nodata in all products.", "quantifier": "all masks, pixels, products and schedules", "why_tests_cant": "the whole image and any schedule are quantified over", "anchors": ["src/modules/higher-level/level3-hl.c: level3", "src/modules/cross-level/brick_base-cl.c: allocate_brick_bands"]}
{"id": "C96", "title": "Overviews show the composite", "statement": "Each pixel of the overview of a composite is the byte that results from a linear stretch of the composite at the pixel that covers its upper left corner, which lies inside of the image; no colour is undefined, and the overviews of the chunks fill the overview of the tile.", "quantifier": "all image sizes, resolutions, chunk sizes and values", "why_tests_cant": "all combinations of sizes and resolutions, and extreme or rare values", "anchors": ["src/modules/higher-level/bap-hl.c: bap_overview", "src/modules/higher-level/level3-hl.c: compile_level3_brick"]}
{"id": "C97", "title": "Seasonal averages use one season", "statement": "The seasonal average of a pixel is the mean of its valid acquisitions in the seasonal window: of all years, or of the season of the requested year only; windows without data get the mean over all windows, pixels without data or outside of the mask are nodata.", "quantifier": "all lists of acquisitions, window definitions and years", "why_tests_cant": "histories of acquisitions of any length, and all window definitions", "anchors": ["src/modules/higher-level/improphe-hl.c: average_season"]}
{"id": "C98", "title": "Resolution merge stays within the data", "statement": "The predicted value of a pixel lies between the smallest and the largest coarse value of the neighbours that are used: valid, within the radius, and spectrally similar for the strictest cut-off with enough neighbours; without similar neighbours the coarse value is kept; more similar and more homogeneous neighbours have more weight.", "quantifier": "all images, positions, radii, values and roundings of floating point numbers", "why_tests_cant": "neighbourhoods of any size, values at the thresholds and rounding of the weighted mean", "anchors": ["src/modules/higher-level/improphe-hl.c: improphe, rescale_weight"]}
{"id": "C99", "title": "Improved Level 2 data", "statement": "In improved coarse resolution Level 2 data, pixels outside of the processing mask are nodata, invalid pixels keep the data, and valid pixels lie within the range of the valid data of the same band within the radius.", "quantifier": "all chunks, masks, validities and values", "why_tests_cant": "whole images with any combination of masked, invalid and valid pixels", "anchors": ["src/modules/higher-level/l2-improphe-hl.c: level2_improphe"]}
{"id": "C100", "title": "Texture and standardised images", "statement": "The texture of a pixel is the largest standard deviation of a band in the window around it; a standardised image has mean 0 and variance 1 at its valid pixels, and no value is undefined.", "quantifier": "all images, window sizes and nodata patterns", "why_tests_cant": "windows of any size and position, and degenerate images", "anchors": ["src/modules/higher-level/improphe-hl.c: focal_sd, standardize_float"]}
{"id": "C101", "title": "Improved continuous fields", "statement": "The improved continuous fields have one band for each requested year; pixels outside of the processing mask are nodata, invalid pixels keep the data, and valid pixels lie within the range of the valid data of that feature and year within the radius; years that are not in the file are rejected.", "quantifier": "all lists of years, features, masks and values", "why_tests_cant": "any number of years and features, with any pattern of missing data", "anchors": ["src/modules/higher-level/cf-improphe-hl.c: confield_improphe"]}
{"id": "C102", "title": "Principal components", "statement": "The components of an image are uncorrelated, have the eigenvalues of the covariance matrix of the bands as variances in descending order, and keep the distances between pixels; the smallest number of components is kept that explains more than the requested share of the variance; pixels that are masked or incomplete are nodata and do not contribute.", "quantifier": "all images of any number of bands and pixels, all masks, and all solutions of the eigenvalue problem", "why_tests_cant": "any image and any orthonormal basis of eigenvectors that the solver may return", "anchors": ["src/modules/cross-level/pca-cl.c: pca"]}
{"id": "C103", "title": "Level 2 tiles show the data at their map coordinates", "statement": "When Level 2 products are cut into tiles, each pixel of the dataset belongs to exactly one tile, row and column; each product of a tile has the extent of the tile, and each of its pixels has the value of the dataset at the same map coordinates, or nodata where there is none.", "quantifier": "all datacubes, tiles, datasets, products and resolutions, and all roundings of the offset", "why_tests_cant": "images of any size and position relative to the grid, and floating point resolutions", "anchors": ["src/modules/lower-level/cube-ll.c: tile_level2", "src/modules/lower-level/atmo-ll.c: compile_l2_ovv"]}
{"id": "C104", "title": "Level 2 tiles are written if they have usable data", "statement": "A tile is written if and only if it is in the extent of the image, is on the allow-list (if there is one), has at least one pixel with data, and the share of cloud and cloud shadow in its data does not exceed the limit; it is written once, with all products.", "quantifier": "all datasets, allow-lists, extents and limits", "why_tests_cant": "any distribution of clouds and data over tiles of any size", "anchors": ["src/modules/lower-level/cube-ll.c: tile_level2"]}
{"id": "C105", "title": "The tiles of an image cover the image", "statement": "The extent of tiles that is processed for a Level 1 image contains the tile of every point of the image.", "quantifier": "all images, datacubes and transformations between the projections", "why_tests_cant": "infinitely many transformations; data are lost without any message", "anchors": ["src/modules/lower-level/cube-ll.c: start_datacube", "src/modules/lower-level/equi7-ll.c: start_equi7cube", "src/modules/lower-level/glance7-ll.c: start_glance7cube"]}
{"id": "C106", "title": "Tiles consist of whole pixels, chunks divide tiles", "statement": "A TILE_SIZE is accepted if and only if it is a multiple of RESOLUTION in both directions, and a tile then has exactly that many columns and rows, so that the pixels of neighbouring tiles join without gaps; a CHUNK_SIZE is accepted if and only if a whole number of chunks fits in a tile.", "quantifier": "all tile sizes, resolutions, chunk sizes and roundings of the division", "why_tests_cant": "sizes are arbitrary floating point numbers; single cases behave differently in the last bit", "anchors": ["src/modules/lower-level/cube-ll.c: start_datacube", "src/modules/cross-level/cube-cl.c: update_datacube_res", "src/modules/higher-level/progress-hl.c: chunk_layout", "src/modules/lower-level/equi7-ll.c: start_equi7cube", "src/modules/lower-level/glance7-ll.c: start_glance7cube"]}
{"id": "C107", "title": "Continental datacubes receive their own tiles", "statement": "With PROJECTION = EQUI7 or GLANCE7, an image is processed for exactly the continents that have a tile in the extent of the image; with the name of one continent, for this one only; and only tiles of the continent are written into its datacube.", "quantifier": "all images, continents and lists of tiles", "why_tests_cant": "any position of an image relative to seven grids", "anchors": ["src/modules/lower-level/equi7-ll.c: start_equi7cube", "src/modules/lower-level/glance7-ll.c: start_glance7cube", "src/main/lower-level/force-l2ps.c: main"]}
{"id": "C108", "title": "Sun positions use the date and time of the acquisition", "statement": "The astronomical time from which declination and equation of time are computed is the Julian day of the date (Gregorian calendar) and the time of the acquisition.", "quantifier": "all dates and times, all roundings to nearest", "why_tests_cant": "every date of the calendar, and the precision of a `float` of this size", "anchors": ["src/modules/cross-level/sun-cl.c: sunJC, sunpos"]}
{"id": "C109", "title": "Sun zenith and azimuth are the direction of the sun", "statement": "Given declination and equation of time, the returned zenith and azimuth are the direction of the sun at the given place and time: azimuth clockwise from north in [0, 360), zenith angle reduced by refraction of at most 0.58 degrees; unless the sun is within 0.06 degrees of the zenith or the place within 0.06 degrees of a pole. The distance of the sun is between 0.98 and 1.02 astronomical units.", "quantifier": "all latitudes, longitudes, declinations, times and days", "why_tests_cant": "continuous domains with several branches", "anchors": ["src/modules/cross-level/sun-cl.c: sunpos, doy2dsun"]}
{"id": "C110", "title": "The standard sun zenith uses the right instant", "statement": "The sun zenith to which reflectance is normalised in the BRDF correction is the one at the mean local overpass time of the two missions, converted to GMT with its date.", "quantifier": "all dates, latitudes and longitudes", "why_tests_cant": "continuous domains; the turn of the year and the poles are rarely tested", "anchors": ["src/modules/lower-level/sunview-ll.c: localtime2gmt, standard_sunzenith"]}
{"id": "C111", "title": "The corners of a tilted image are found", "statement": "For a Landsat image with valid pixels, the four corners are valid pixels: the leftmost one of the first row, the uppermost one of the last column, the lowest one of the first column and the rightmost one of the last row with valid pixels; the nadir line connects the middles of upper and lower corners.", "quantifier": "all images (sizes, positions of valid pixels)", "why_tests_cant": "depends on the shape of the valid area, which is different for each image", "anchors": ["src/modules/lower-level/sunview-ll.c: viewgeo"]}
{"id": "C112", "title": "View zenith follows from the distance to the nadir line", "statement": "The view zenith of a Landsat pixel is the angle of the right triangle of the height of the satellite and the shortest distance of the pixel from the nadir line; it is at least zero and less than 90 degrees.", "quantifier": "all nadir lines, pixels and resolutions", "why_tests_cant": "continuous domain", "anchors": ["src/modules/lower-level/sunview-ll.c: viewgeo, view_angle"]}
{"id": "C113", "title": "View azimuth is the direction to the nadir line", "statement": "The view azimuth of a Landsat pixel, clockwise from north, is the direction in which the nadir line is reached on the shortest way.", "quantifier": "all nadir lines, pixels and map coordinates", "why_tests_cant": "continuous domain; the error depends on latitude and inclination of the orbit", "anchors": ["src/modules/lower-level/sunview-ll.c: viewgeo, view_angle", "src/modules/cross-level/brick_base-cl.c: get_brick_geo, get_brick_y"]}
{"id": "C114", "title": "Sun angles are those of the location", "statement": "The sun angles of a coarse cell are computed for a location in this cell; a valid pixel has the flag of low sun if and only if the zenith angle of the sun in its cell is more than 75 degrees.", "quantifier": "all images, cells and pixels", "why_tests_cant": "the error is proportional to the row number, and depends on the image", "anchors": ["src/modules/lower-level/sunview-ll.c: sun_target_view", "src/modules/cross-level/brick_base-cl.c: get_brick_geo, get_brick_y, convert_brick_p2p"]}
{"id": "C115", "title": "Pixels without view angles are no data", "statement": "A pixel of a Sentinel-2 image is set to no data because of missing view angles if and only if the view angles of its coarse cell are missing.", "quantifier": "all resolutions that divide the cell size, all cells and pixels", "why_tests_cant": "rounding in single precision depends on cell and resolution", "anchors": ["src/modules/lower-level/sunview-ll.c: view_angle"]}
{"id": "C116", "title": "Void and saturated pixels are recognized", "statement": "A pixel of a Level 1 image is masked if and only if it is void (digital number 0 in any band but the cirrus band), or, with the buffer, next to a void pixel. A pixel that is not void has the flag of saturation if and only if a band other than the temperature is saturated. An image with a temperature band is rejected if and only if the temperature is 0 everywhere.", "quantifier": "all images: numbers of bands, sizes, digital numbers; all orders in which threads write", "why_tests_cant": "the bands are searched one after the other, the result depends on combinations of bands; thread schedules", "anchors": ["src/modules/lower-level/read-ll.c: bounds_level1", "src/modules/cross-level/imagefuns-cl.c: buffer_"]}
{"id": "C117", "title": "Impulse noise is masked", "statement": "In 8-bit images, with the option on, a pixel that has eight neighbours is masked if and only if it had been masked or, among the standard deviations of blue, green and red in its window, the largest one exceeds the second largest one by more than 15. Nothing else changes.", "quantifier": "all images and masks, all standard deviations", "why_tests_cant": "sequential updates of the mask that is read at the same time; cases of the order of three numbers", "anchors": ["src/modules/lower-level/read-ll.c: impulse_noise_level1"]}
{"id": "C118", "title": "Landsat digital numbers become reflectance and temperature", "statement": "The integer part of 10000 times the reflectance at the top of the atmosphere (from the factors of the metadata, or from radiance, distance of the sun and solar irradiance), divided by the cosine of the zenith angle; the temperature is the one that emits the measured radiance after Planck, times 100, at most 32767. Larger digital numbers never give smaller values. Pixels that are not positive in a band (other than cirrus) are masked, and masked pixels have the nodata value in all bands.", "quantifier": "all calibration factors, digital numbers, positions of the sun and sequences of bands", "why_tests_cant": "continuous domain", "anchors": ["src/modules/lower-level/read-ll.c: convert_level1"]}
{"id": "C119", "title": "Sentinel-2 digital numbers become reflectance", "statement": "A digital number that stands for the reflectance n/10000 (after adding the offset of the band) is n in the product.", "quantifier": "all digital numbers, offsets and scales", "why_tests_cant": "wrong by one for single numbers only; rounding in single precision", "anchors": ["src/modules/lower-level/read-ll.c: convert_level1"]}
{"id": "C120", "title": "force-hist counts every value", "statement": "The table of force-hist has exactly one row for each value of the image that is not the nodata value, in increasing order, with the number of pixels of this value; the counts add up to the number of pixels that are not nodata. An image without nodata value is refused.", "quantifier": "all images with 16-bit values and all nodata values", "why_tests_cant": "every value and multiplicity; nodata values outside of the usual range", "anchors": ["src/main/aux-level/force-hist.c: main"]}
{"id": "C121", "title": "force-stack contains each band of each image once", "statement": "force-stack accepts two or more images of the same size and position in one directory, and the stack contains each band of each image exactly once: interleaved by band if all images have the same number of bands, image by image otherwise.", "quantifier": "all lists of images and numbers of bands", "why_tests_cant": "every combination of numbers of bands and images", "anchors": ["src/main/aux-level/force-stack.c: main"]}
{"id": "C122", "title": "force-tabulate-grid lists all tiles of the requested area", "statement": "The file contains each tile that has a point of the requested area, once, with its number and its bounds, and no tile away from the area.", "quantifier": "all datacubes, areas and projections", "why_tests_cant": "curvature of the projected area appears only for some areas; tile edges", "anchors": ["src/main/aux-level/force-tabulate-grid.c: main", "src/modules/cross-level/tile-cl.c: tile_find"]}
{"id": "C123", "title": "force-tile-finder gives tile and pixel of a point", "statement": "The tile contains the point, the pixel is a pixel of this tile, and the area of the pixel contains the point.", "quantifier": "all datacubes and points", "why_tests_cant": "points on edges are a null set for random tests", "anchors": ["src/main/aux-level/force-tile-finder.c: main", "src/modules/cross-level/tile-cl.c: tile_find"]}
{"id": "C124", "title": "force-qai-inflate separates the quality information without loss", "statement": "Each of the twelve layers holds the number in the documented bits of the quality information, and the quality information can be computed from the layers; no layer has the nodata value.", "quantifier": "all 65536 values", "why_tests_cant": "all combinations of flags; a swapped layer shows only where the flags differ", "anchors": ["src/main/higher-level/force-qai-inflate.c: main", "src/modules/cross-level/quality-cl.c"]}
{"id": "C125", "title": "Cloud and shadow flags agree with the detected objects", "statement": "In the final quality information, pixels of detected clouds are confident clouds, pixels within the buffer around them are less confident clouds, other pixels near cirrus are cirrus, pixels near detected shadows are shadows; pixels away from all of these keep their flags, and nodata pixels are not changed. The reported cover is the percentage of valid pixels with cloud or shadow.", "quantifier": "all masks, quality bits, buffer radii, image sizes and thread schedules", "why_tests_cant": "every mask at every position, including the edge of the image; every order of the writes of the threads", "anchors": ["src/modules/lower-level/cloud-ll.c: finalize_cloud", "src/modules/cross-level/imagefuns-cl.c: buffer_"]}
{"id": "C126", "title": "Potential shadows do not depend on the number of threads", "statement": "The depth of dark areas, from which shadows are found, is the smaller one of the depths in the near infrared and the first short-wave infrared, whatever the number of threads.", "quantifier": "all images, numbers of threads and orders in which threads finish", "why_tests_cant": "a test has one number of threads and one order", "anchors": ["src/modules/lower-level/cloud-ll.c: shadow_probability", "src/modules/cross-level/imagefuns-cl.c: greyscale_reconstruction_"]}
{"id": "C127", "title": "Sentinel-2 clouds are cores of parallax and all that is connected to them", "statement": "A cell becomes a cloud if and only if it is a core (parallax index at most -0.5, or less than 0 with high variability, no poor cell around it) or is connected to a core through cells whose index is between -1 and -0.25; the result is transferred to exactly the pixels of the cells. The computation stays within its arrays.", "quantifier": "all images of all sizes", "why_tests_cant": "connectivity through paths of any length; odd image sizes", "anchors": ["src/modules/lower-level/cloud-ll.c: cloud_parallax"]}
{"id": "C128", "title": "MAX_CLOUD_COVER_FRAME cancels images that exceed the threshold", "statement": "An image is processed further if and only if its percentage of valid pixels with cloud or shadow does not exceed the threshold.", "quantifier": "all images and thresholds", "why_tests_cant": "thresholds that are met exactly; all combinations of the intermediate decisions", "anchors": ["src/modules/lower-level/cloud-ll.c: detect_clouds", "src/modules/lower-level/cloud-ll.c: finalize_cloud"]}
{"id": "C129", "title": "Cloud distance is the distance to the nearest cloud, shadow or snow", "statement": "For every valid pixel the product is the Euclidean distance in metres to the nearest pixel with cloud, shadow or snow (rounded, at most 32767), nodata for nodata pixels.", "quantifier": "all quality information and image sizes", "why_tests_cant": "all masks; the numerical range of the squared distances", "anchors": ["src/modules/lower-level/cloud-ll.c: cloud_distance", "src/modules/cross-level/imagefuns-cl.c: dt_"]}
{"id": "C130", "title": "Every cloud is matched with shadow by similarity, in any order", "statement": "The shadow of a cloud object consists of the positions at all heights with a similarity of at least 0.85, or of the best height if there is none but some similarity; the mask is the union over all objects and does not depend on the order in which threads treat them. All pixels of an object are used.", "quantifier": "all objects, heights, scenes and thread schedules", "why_tests_cant": "order of threads; ties between heights; objects smaller than the sampling distance", "anchors": ["src/modules/lower-level/cloud-ll.c: shadow_matching"]}
{"id": "C131", "title": "Potential clouds, snow, water, clear land follow the spectral rules", "statement": "A pixel is a potential cloud if and only if it is saturated or passes all tests on its reflectance and temperature; snow and water follow their rules; clear pixels are neither clouds nor snow; the variability probability is between 0 and 1.", "quantifier": "all 16-bit reflectances and temperatures", "why_tests_cant": "thresholds that are met exactly; zero and negative reflectance", "anchors": ["src/modules/lower-level/cloud-ll.c: potential_cloud", "src/modules/lower-level/cloud-ll.c: cloud_probability"]}
{"id": "C132", "title": "Higher-level processing uses exactly the requested images", "statement": "From a directory of Level 2 data, the images that are used are exactly those of the requested product, sensors, file types, dates and days of the year (Landsat 7 until the given date), each once, in alphabetical order, and each with the right sensor; other files are ignored.", "quantifier": "all directories, requests and file names", "why_tests_cant": "all contents of a directory; names that contain a product or sensor by accident", "anchors": ["src/modules/higher-level/read-ard-hl.c: list_ard", "src/modules/higher-level/read-ard-hl.c: product_ard", "src/modules/higher-level/read-ard-hl.c: sensor_ard", "src/modules/higher-level/read-ard-hl.c: read_ard"]}
{"id": "C133", "title": "An image is used only with its own quality and auxiliary products", "statement": "The quality and auxiliary products of an image are the files of the same date and sensor. If something that is needed cannot be read, an error is reported; otherwise every image has everything that was asked for, however the images are distributed to threads.", "quantifier": "all names, products, combinations of failures and thread schedules", "why_tests_cant": "every combination of failing reads and distributions to threads", "anchors": ["src/modules/higher-level/read-ard-hl.c: read_ard", "src/modules/cross-level/string-cl.c: replace_string"]}
{"id": "C134", "title": "Aggregation to a coarser resolution is an average of the valid pixels of the footprint", "statement": "With a point spread function, a coarse pixel is missing if and only if no fine pixel of its footprint is valid; otherwise it is the mean of the (convolved) valid pixels weighted by their overlap and lies within the range of the valid values. A constant image stays constant.", "quantifier": "all images, sizes, ratios of resolutions and pixels", "why_tests_cant": "all ratios of resolutions and all patterns of missing pixels", "anchors": ["src/modules/higher-level/read-ard-hl.c: reduce_psf", "src/modules/cross-level/imagefuns-cl.c: gauss_kernel"]}
{"id": "C135", "title": "The Gaussian kernel has its half maximum at half a pixel", "statement": "The search for the width of the kernel ends for every resolution, with the width (within 0.01) for which the weight at half a coarse pixel is half of the maximum. The kernel is positive, symmetric, and largest at its centre.", "quantifier": "all ratios of resolutions and kernel sizes", "why_tests_cant": "the search is a loop without bound; all sizes of kernels", "anchors": ["src/modules/cross-level/imagefuns-cl.c: find_sigma, gauss_kernel"]}
{"id": "C136", "title": "Masks and quality of inputs without quality product", "statement": "A pixel is processed if and only if its mask value is 1, and a chunk is skipped if and only if there is no such pixel. Without quality product a pixel is missing if and only if one of its bands is nodata; for features if and only if it has the nodata value.", "quantifier": "all masks, images and numbers of bands", "why_tests_cant": "all masks and combinations of bands", "anchors": ["src/modules/higher-level/read-ard-hl.c: read_mask", "src/modules/higher-level/read-ard-hl.c: read_ard", "src/modules/higher-level/read-ard-hl.c: read_features"]}
{"id": "C137", "title": "A custom output format is what the file says", "statement": "With a file of custom GDAL options the driver and the extension are those of the file, and GDAL is given exactly the other lines as creation options, in their order. Driver and extension are mandatory, other lines are optional; a file without driver or extension is refused.", "quantifier": "all files of tag and value pairs", "why_tests_cant": "all numbers and orders of lines, lines given more than once", "anchors": ["src/modules/cross-level/gdalopt-cl.c: parse_gdaloptions", "src/modules/cross-level/read-cl.c: read_tagvalue", "src/modules/aux-level/param-aux.c: write_par_gdal"]}
{"id": "C138", "title": "Every output image is written with the format that was chosen", "statement": "Each predefined format gives its driver, extension and creation options, and the same driver, extension and options reach GDAL after any number of copies from parameter to image to image; the same holds for a custom format.", "quantifier": "all formats and numbers of copies", "why_tests_cant": "unbounded chains of copies", "anchors": ["src/modules/cross-level/gdalopt-cl.c: default_gdaloptions, copy_gdaloptions", "src/modules/cross-level/brick_io-cl.cpp: write_brick"]}
{"id": "C139", "title": "Options for vector data are passed to GDAL as complete lists", "statement": "Every option array handed to GDAL for the reprojection and rasterization of vector data ends where GDAL stops reading, so that GDAL sees exactly the options that were set.", "quantifier": "all projections and option lists", "why_tests_cant": "reading behind an array is undefined and depends on the memory that follows", "anchors": ["src/modules/cross-level/vector-cl.c: warp_vector_from_disc, rasterize_vector_from_memory"]}
{"id": "C140", "title": "The water vapour database covers every day of the period", "statement": "For every accepted date range, every day from the first to the last is processed exactly once and in order, and the program then ends; a range that ends before it starts, or contains a date that does not exist, is refused.", "quantifier": "all date ranges, times of the run and daylight saving rules", "why_tests_cant": "all periods of any length; the result depends on the hour at which the program runs", "anchors": ["src/main/lower-level/force-lut-modis.c: main", "src/modules/cross-level/date-cl.c: date_plus", "src/modules/lower-level/modwvp-ll.c: parse_date_range"]}
{"id": "C141", "title": "All granules that show a location are read", "statement": "From the table of granules, for each location every usable granule that overlaps the frame of 1.5 x 1.5 degrees around it on the globe is read, also across the date line, unless one granule that contains the whole frame is read alone; night granules and granules at the poles are ignored.", "quantifier": "all locations and tables of granules", "why_tests_cant": "all positions of quadrilaterals and frames, including the date line", "anchors": ["src/modules/lower-level/modwvp-ll.c: read_modis_geometa, modis_intersect, modis_inside"]}
{"id": "C142", "title": "The water vapour of a location is the mean of the clear pixels around it", "statement": "The value of a location is the mean over all clear pixels in its frame, of all granules, if these are at least ten percent of the pixels in the frame, and missing (9999) otherwise.", "quantifier": "all granules, their sizes, geolocations, clouds and values", "why_tests_cant": "any number and size of granules", "anchors": ["src/modules/lower-level/modwvp-ll.c: compile_modis_wvp"]}
{"id": "C143", "title": "The daily table has the better of the two sensors for each location", "statement": "The table of a day has one line per location with the value of Terra or Aqua, whichever has one; if both have one, that with more pixels used for averaging; no table is written if no location has a value.", "quantifier": "all days and results of the two sensors", "why_tests_cant": "all combinations for any number of locations", "anchors": ["src/modules/lower-level/modwvp-ll.c: choose_modis_wvp, create_wvp_lut"]}
{"id": "C144", "title": "A water vapour table is only used for the locations it was made for", "statement": "A table that was written for a list of locations is read back for the same locations with the same values; a table for other locations is refused. The file of locations gives exactly the locations of its lines, and a file that cannot be read or has other lines is refused.", "quantifier": "all lists of locations and values, all texts", "why_tests_cant": "all values of the printed floating point numbers", "anchors": ["src/modules/lower-level/modwvp-ll.c: read_wvp_lut, write_wvp_lut, parse_coord_list", "src/main/lower-level/force-lut-modis.c: main"]}
{"id": "C145", "title": "The water vapour climatology is the long-term monthly mean", "statement": "For each month and location the climatology holds mean, standard deviation and number of the values of all daily tables of the month over all years; 9999 where there are none.", "quantifier": "all sets of daily tables", "why_tests_cant": "one-pass recurrence over any number of days", "anchors": ["src/modules/lower-level/modwvp-ll.c: create_wvp_climatology"]}
{"id": "C146", "title": "The water vapour of an image is the best one of the database", "statement": "Without database the constant of the parameter file is used. Otherwise the value of the closest location (within 1.5 degrees on the globe) in the table of the day, if it has one; else that of the climatology, unless STRICT_WATER_VAPOR forbids this; the image fails if there is none.", "quantifier": "all databases, images and settings", "why_tests_cant": "all distances and orders of locations", "anchors": ["src/modules/lower-level/gas-ll.c: water_vapor_from_lut", "src/modules/aux-level/param-aux.c: write_par_ll_atcor"]}
{"id": "C147", "title": "The CITEME file lists the references for the run", "statement": "After a run the output directory holds a CITEME file that lists exactly the references for the methods this run used, also if the directory is used by several runs with different methods.", "quantifier": "all sets of methods, orders of citations and histories of runs in a directory", "why_tests_cant": "all subsets of the references and all histories of runs", "anchors": ["src/modules/cross-level/cite-cl.c: cite_me, cite_crc8, cite_push"]}
{"id": "C148", "title": "A pixel is nodata exactly if it holds the nodata value", "statement": "In an image of any data type, a pixel is treated as nodata if and only if its value is the nodata value of the image.", "quantifier": "all values and nodata values, integer and floating point images", "why_tests_cant": "all floating point numbers; the comparison uses a relative tolerance in single precision", "anchors": ["src/modules/cross-level/brick_base-cl.c: is_nodata", "src/modules/cross-level/utils-cl.c: fequal"]}
{"id": "C149", "title": "Atmospheric parameters vary smoothly between the cells of the coarse grid", "statement": "At every pixel each atmospheric parameter is the bilinear interpolation between the centres of the surrounding coarse cells; cells without data do not contribute, and no cell outside of the grid is read.", "quantifier": "all grid sizes, pixel positions and patterns of missing cells", "why_tests_cant": "continuous positions and arbitrary patterns of missing cells", "anchors": ["src/modules/lower-level/atmo-ll.c: interpolation_weights, interpolate_coarse", "src/modules/lower-level/atc-ll.c: init_atc_xy"]}
{"id": "C150", "title": "The reflectance product holds the scaled reflectance or nodata", "statement": "Each band of the reflectance product is the surface reflectance of the band of the same name times 10000; reflectances below -1 or above 2 make the pixel nodata in all bands; negative and saturated reflectances are flagged; a stored nodata value always goes with the nodata flag.", "quantifier": "all scenes, bands and radiative transfers", "why_tests_cant": "the bands are written over the bands being read, in one buffer, and the nodata of a later band is to reach the earlier ones", "anchors": ["src/modules/lower-level/atmo-ll.c: surface_reflectance, compile_l2_boa"]}
{"id": "C151", "title": "All Level 2 products agree on nodata", "statement": "A pixel is nodata in all products (reflectance, haze, aerosol, water vapour, view zenith) if and only if the quality product says so, including pixels outside of the area of interest; elsewhere they hold the documented multiples of the quantities.", "quantifier": "all scenes, areas of interest, settings and sensors", "why_tests_cant": "the order of the products decides about the pixels that become nodata late", "anchors": ["src/modules/lower-level/atmo-ll.c: atmospheric_correction, compile_level2, compile_l2_hot, compile_l2_aod, compile_l2_vzn, compile_l2_wvp, compile_l2_qai, apply_aoi", "src/modules/lower-level/gas-ll.c: water_vapor"]}
{"id": "C152", "title": "The quicklook shows the image with the colours of the legend", "statement": "Every pixel of the quicklook is coloured after the image pixel that contains its upper left corner: the colour of the first quality indicator of the documented legend that applies, or the true colour stretched from 0 to 0.25 reflectance; no access is outside of the image.", "quantifier": "all image sizes, resolutions, quality words and reflectances", "why_tests_cant": "all sizes and resolutions, all quality words", "anchors": ["src/modules/lower-level/atmo-ll.c: compile_l2_ovv"]}
{"id": "C153", "title": "The distance product is the distance to the next cloud", "statement": "At every pixel with data the distance product is the distance to the nearest cloud, shadow or snow pixel in projection units; -9999 at nodata.", "quantifier": "all images, patterns of clouds and resolutions", "why_tests_cant": "any pattern and size", "anchors": ["src/modules/lower-level/atmo-ll.c: compile_l2_dst"]}
{"id": "C154", "title": "The background reflectance is an average of clear surface", "statement": "The background reflectance that is used for the adjacency correction lies within the range of the reflectance of clear pixels and of the pixel itself; the reflectance of clouds and of nodata pixels does not contribute to the surroundings.", "quantifier": "all images, patterns of clouds, resolutions and weights of the rings", "why_tests_cant": "recursive filters over lines of any length with arbitrary gaps", "anchors": ["src/modules/lower-level/atmo-ll.c: background_reflectance"]}
{"id": "C155", "title": "Synthetic mixtures have valid fractions", "statement": "In every synthetic mixture the fractions lie between 0 and 1 and sum to exactly 1 in double precision, so that the program never stops at its assertion; the mixed profile lies within the range of the mixed samples in each band.", "quantifier": "all random numbers, mixing complexities and samples", "why_tests_cant": "rounding of sums of random floating point numbers of any number", "anchors": ["python/force-synthmix.py: synthMixCore"]}
{"id": "C156", "title": "The response of a mixture is the share of the target class", "statement": "The response written for a synthetic mixture is the total fraction of the samples of the target class in the mixture; the response file has a line for each mixture and each original sample.", "quantifier": "all mixtures, settings and target classes", "why_tests_cant": "all draws of classes and fractions", "anchors": ["python/force-synthmix.py: synthMixCore"]}
{"id": "C157", "title": "Classes are mixed with the requested likelihood", "statement": "The samples of a mixture are drawn with the likelihood the user has set: proportional to the number of samples of the class, equal, or the given list, among the classes to be used.", "quantifier": "all response files, class lists and likelihoods", "why_tests_cant": "all sets and orders of classes", "anchors": ["python/force-synthmix.py: synthMixCore, synthMixCli"]}
{"id": "C158", "title": "Adjusted areas are the estimates of stratified sampling", "statement": "For every sample and map, the adjusted shares are the estimated area proportions of stratified sampling; the adjusted areas of all classes are not negative and sum to the mapped area, and their confidence intervals are 1.96 standard errors of this estimator. Samples with less than two samples in a map class are refused.", "quantifier": "all confusion matrices, numbers of classes, pixel counts and pixel areas", "why_tests_cant": "any number of classes and any counts", "anchors": ["rstats/force-map-accuracy.r: confusion_adjusted, area_adjusted, confidence_area_adjusted"]}
{"id": "C159", "title": "Accuracies are weighted by area", "statement": "The adjusted overall accuracy is the mean of the user's accuracies weighted by mapped area; all accuracies are between 0 and 1; a sample in proportion to area gives the traditional accuracies; a sample without confusion gives accuracies of 1, the mapped areas and empty intervals.", "quantifier": "all confusion matrices and pixel counts", "why_tests_cant": "any number of classes and any counts", "anchors": ["rstats/force-map-accuracy.r: acc_metrics, acc_adjusted, oa_se, ua_se"]}
{"id": "C160", "title": "The standard error of the producer's accuracy is that of stratified sampling", "statement": "The reported standard error of the producer's accuracy of each class is that of Olofsson et al. (2014, eq. 7), the cited reference.", "quantifier": "all confusion matrices, pixel counts and classes", "why_tests_cant": "any number of classes; equal sample numbers in map and reference hide the difference", "anchors": ["rstats/force-map-accuracy.r: term1, term2, Nj, pa_se"]}
{"id": "C161", "title": "Counts and samples are matched by class", "statement": "The confusion matrix counts every sample once, in the cell of its two labels; the pixel count of a class is used for this class, whatever the order of the rows is; a table with other classes is refused.", "quantifier": "all samples, labels and tables of counts", "why_tests_cant": "all sets of classes", "anchors": ["rstats/force-map-accuracy.r: classes, confusion_counts, count"]}
{"id": "C162", "title": "The suggested sample size achieves the standard error", "statement": "The suggested sample size is the number of samples for the requested standard error of the overall accuracy (rounded down), and at most a quarter over its square.", "quantifier": "all areas, expected accuracies and standard errors", "why_tests_cant": "real numbers", "anchors": ["rstats/force-sample-size.r: number"]}
{"id": "C163", "title": "Recommended samples reach the minimum and sum to the suggested size", "statement": "Every recommended allocation gives each class at least the minimum number of samples; the total is the suggested sample size, up to half a sample per class from rounding.", "quantifier": "all areas, accuracies and minimum sizes", "why_tests_cant": "any number of classes and any areas", "anchors": ["rstats/force-sample-size.r: proportional, compromise"]}
{"id": "C164", "title": "Every combination of replacement values gets its parameter file", "statement": "force-magic-parameters generates exactly one parameter file for each combination of the values of all replacement vectors; it is the parameter file from the first line with + on, with every use of a variable replaced by its value and nothing else changed.", "quantifier": "all numbers of vectors and values, all names, values and parameter files", "why_tests_cant": "any number of vectors and any text", "anchors": ["bash/force-magic-parameters.sh: KEYS, VALUES, COMBS, -c all"]}
{"id": "C165", "title": "Paired replacement vectors are used position by position", "statement": "With -c paired, the parameter file number i has each variable replaced by value number i of its vector; vectors of different lengths are refused.", "quantifier": "all numbers of vectors and values, all names, values and parameter files", "why_tests_cant": "any number of vectors and any text", "anchors": ["bash/force-magic-parameters.sh: COMBS, -c paired"]}
{"id": "C166", "title": "The search finds every acquisition once, in its latest processing", "statement": "force-level1-csd selects, for every Sentinel-2 acquisition in the catalogue that meets the requested tiles, sensors, dates and cloud cover, exactly one product: the one of the latest baseline and generation; nothing else is selected, and the result is ordered by date.", "quantifier": "all catalogues and requests", "why_tests_cant": "any number of scenes in any order", "anchors": ["bash/force-level1-csd.sh: get_data, sort, awk"]}
{"id": "C167", "title": "Only complete scenes are queued, and only once", "statement": "Whatever runs of force-level1-csd were made, and wherever they were interrupted, every scene in the queue file is completely in the pool, and no scene was queued twice.", "quantifier": "all sequences of runs, scenes and points of interruption", "why_tests_cant": "crash points and histories", "anchors": ["bash/force-level1-csd.sh: download loop, queue file"]}
{"id": "C168", "title": "A repeated download makes up for interrupted ones", "statement": "After a run of force-level1-csd that was not interrupted, every selected scene is complete in the pool and in the queue, whatever runs were interrupted before.", "quantifier": "all sequences of runs, scenes and points of interruption", "why_tests_cant": "crash points and histories", "anchors": ["bash/force-level1-csd.sh: download loop, .gstmp, queue file"]}
{"id": "C169", "title": "Slope and aspect are those of the terrain", "statement": "For terrain that rises evenly, slope and aspect are the inclination of the steepest descent and its compass direction, for every inclination and direction; the slope flag is set exactly above 2 degrees; no terrain leads to an undefined conversion.", "quantifier": "all elevations, inclinations, directions and resolutions", "why_tests_cant": "real-valued inclinations and directions, all quadrants", "anchors": ["src/modules/lower-level/topo-ll.c: exposition_topography"]}
{"id": "C170", "title": "Illumination is the cosine of the angle between sun and terrain normal", "statement": "The illumination of a slope is the cosine of the angle between the direction of the sun and the terrain normal up to the resolution of the storage, and the illumination flag distinguishes up to 55, 80, 90 and more degrees.", "quantifier": "all sun positions and slopes", "why_tests_cant": "real-valued angles", "anchors": ["src/modules/lower-level/topo-ll.c: illumination_topography", "src/modules/lower-level/radtran-ll.c: illumin"]}
{"id": "C171", "title": "The atmosphere is computed for the elevation of the pixel", "statement": "Each pixel is assigned one of 255 elevation classes, for which the atmosphere is computed at an elevation that differs from that of the pixel by at most half a class; elevations beyond -500 and 8999 m are refused.", "quantifier": "all elevation models", "why_tests_cant": "any set of elevations", "anchors": ["src/modules/lower-level/topo-ll.c: stats_topography", "src/modules/lower-level/atmo-ll.c: atmo_elevdep"]}
{"id": "C172", "title": "Topographic correction brightens shaded and darkens sunlit slopes", "statement": "The topographic factor is 1 for flat terrain, above 1 for slopes facing away from the sun, below 1 for slopes facing the sun, never beyond the cosine correction, and uses the C-factor propagated from SWIR2 to the band; the C-factor is stored without overflow.", "quantifier": "all sun positions, slopes, C-factors and transmittances", "why_tests_cant": "real-valued parameters", "anchors": ["src/modules/lower-level/atmo-ll.c: surface_reflectance", "src/modules/lower-level/topo-ll.c: cfactor_topography"]}
{"id": "C173", "title": "Every used pixel has an exposition", "statement": "After the topography was computed, every pixel that is not switched off has the slope and aspect of the nearest inner pixel, for which all elevations are known; pixels are switched off only if elevations are missing.", "quantifier": "all image sizes from 3 x 3, masks and elevation models", "why_tests_cant": "image borders of every size", "anchors": ["src/modules/lower-level/topo-ll.c: exposition_topography"]}
{"id": "C174", "title": "Oceans without elevation are at sea level", "statement": "Pixels without elevation that are connected to pixels at sea level get elevation 0; all other pixels are unchanged.", "quantifier": "all elevation models and image sizes", "why_tests_cant": "every shape of coast", "anchors": ["src/modules/lower-level/topo-ll.c: ocean_topography"]}
{"id": "C175", "title": "Transmittances of the atmosphere are physical", "statement": "For every optical depth, gas amount and zenith angle, all transmittances are positive and at most 1, direct and diffuse part add up, direct light follows the law of Beer and Lambert, more atmosphere or a longer way never transmits more, no atmosphere transmits all, and the spherical albedo stays below 1.", "quantifier": "all optical depths, gas amounts, band responses, zenith angles and elevations", "why_tests_cant": "real-valued parameters", "anchors": ["src/modules/lower-level/radtran-ll.c: scatt_transmitt, sphere_albedo, wvp_transmitt, ozone_transmitt, gas_transmitt, mod_elev_factor, aod_elev_factor"]}
{"id": "C176", "title": "Atmospheric correction returns the reflectance of the surface", "statement": "The correction of what the sensor sees above a surface returns the reflectance of the surface, with and without correction of the surroundings; above uniform surfaces both return the same.", "quantifier": "all atmospheres, surfaces and geometries", "why_tests_cant": "real-valued parameters", "anchors": ["src/modules/lower-level/atmo-ll.c: surface_reflectance"]}
{"id": "C177", "title": "Scattering conserves energy and is reciprocal", "statement": "The scattering angle is the angle between sunlight and view, phase functions of molecules and aerosols have the mean 1 over the sphere, the asymmetry used for multiple scattering is that of the phase function, and exchanging sun and sensor does not change the path reflectance.", "quantifier": "all geometries, asymmetries and mixtures", "why_tests_cant": "integrals over all directions", "anchors": ["src/modules/lower-level/radtran-ll.c: backscatter, phase_molecular, phase_aerosol, path_ref", "src/modules/lower-level/atc-ll.c: init_atc"]}
{"id": "C178", "title": "Weights of the surroundings are parts", "statement": "The part of diffuse light from within a radius is between 0 and 1, grows with the radius, and lies between those of aerosols and molecules.", "quantifier": "all radii and optical depths", "why_tests_cant": "real-valued parameters", "anchors": ["src/modules/lower-level/radtran-ll.c: env_weight, env_weight_aerosol, env_weight_molecular"]}
{"id": "C179", "title": "Correction of sun and view geometry keeps reflectance positive", "statement": "The reflectance model is reciprocal and symmetric in the azimuth; the factor is positive, 1 for the standard geometry, each band has the factor of its domain and unknown bands are unchanged.", "quantifier": "all sun and view angles, all sets of bands", "why_tests_cant": "real-valued angles", "anchors": ["src/modules/lower-level/brdf-ll.c: brdf_factor, brdf_forward"]}
{"id": "C180", "title": "Reflection of water follows the equations of Fresnel", "statement": "For every incidence, the computed reflection of water is that of unpolarised light by Fresnel.", "quantifier": "all angles of incidence", "why_tests_cant": "real-valued angles", "anchors": ["src/modules/lower-level/radtran-ll.c: fresnel_reflection"]}
{"id": "C181", "title": "Ozone amounts are climatological", "statement": "The ozone amount is that of the model of van Heuklon for every location and day, and between 235 and 445 Dobson units.", "quantifier": "all locations and days", "why_tests_cant": "real-valued locations", "anchors": ["src/modules/lower-level/gas-ll.c: ozone_amount"]}
{"id": "C182", "title": "Atmospheric parameters belong to the location of the cell", "statement": "The parameters of each cell of the coarse grid are computed once, for the location of this cell.", "quantifier": "all sizes of the image", "why_tests_cant": "every grid size", "anchors": ["src/modules/lower-level/atmo-ll.c: atmo_angledep"]}
{"id": "C183", "title": "Landsat calibration comes from the metadata", "statement": "For every Landsat 4-9 metadata file that is accepted, each band of the sensor has the file name and the calibration numbers the file gives for it, in the older and the newer form of the metadata; thermal constants missing for Landsat 4-7 are the known ones.", "quantifier": "all metadata files, all sensors", "why_tests_cant": "unbounded set of files and orders of lines", "anchors": ["src/modules/lower-level/meta-ll.c: parse_metadata_landsat, parse_metadata_band"]}
{"id": "C184", "title": "Incomplete Landsat metadata are refused", "statement": "A Landsat metadata file that lacks the file name or a calibration number of a band is not accepted.", "quantifier": "all metadata files", "why_tests_cant": "every subset of missing lines", "anchors": ["src/modules/lower-level/meta-ll.c: check_metadata, parse_metadata_landsat"]}
{"id": "C185", "title": "Only images of the requested tiers are processed", "statement": "A Landsat image of a tier beyond the requested one is skipped, whatever the order of the lines of its metadata.", "quantifier": "all metadata files, all requested tiers", "why_tests_cant": "every order of lines", "anchors": ["src/modules/lower-level/meta-ll.c: parse_metadata_landsat"]}
{"id": "C186", "title": "Size, position and time of Landsat images come from the metadata", "statement": "Columns, rows, pixel size, corner of the image (not of the centre of the pixel), date and time of an accepted image are those the metadata give.", "quantifier": "all metadata files", "why_tests_cant": "unbounded set of files", "anchors": ["src/modules/lower-level/meta-ll.c: parse_metadata_landsat"]}
{"id": "C187", "title": "Sentinel-2 angles of a cell are means of those at its corners", "statement": "The sun and view angles of each cell of the angle grid are the mean of the known angles at its four corners, and of all bands and detectors that see it; cells without any angle are nodata.", "quantifier": "all angle grids", "why_tests_cant": "real-valued grids of any size", "anchors": ["src/modules/lower-level/meta-ll.c: interpolate_sunview_grid, collapse_view_grid"]}
{"id": "C188", "title": "The processed part of a Sentinel-2 image contains all data", "statement": "The part of a Sentinel-2 image that is read contains every cell with view angles, lies within the image, and is aligned with the pixels of 10, 20 and 60 m; images without view angles are skipped.", "quantifier": "all patterns of cells with data", "why_tests_cant": "2^484 patterns", "anchors": ["src/modules/lower-level/meta-ll.c: parse_metadata_sentinel2"]}
{"id": "C189", "title": "Radiometric offsets go to their band", "statement": "The radiometric offset in the metadata of Sentinel-2 is used for the band it names and no other; offsets for bands the product does not have are ignored.", "quantifier": "all offset lines", "why_tests_cant": "unbounded set of lines", "anchors": ["src/modules/lower-level/meta-ll.c: parse_metadata_sentinel2"]}
{"id": "C190", "title": "The regression merge adds detail without changing consistent data", "statement": "Where the 20 m band of a Sentinel-2 image is an affine function of the 10 m bands, the resolution merge by regression does not change it; the result does not depend on the order in which pixels are treated.", "quantifier": "all images, all positions, all orders of pixels, every least-squares solver", "why_tests_cant": "real-valued images of any size and every schedule", "anchors": ["src/modules/lower-level/resmerge-ll.c: resolution_merge regression, resmerge_regression"]}
{"id": "C191", "title": "The ImproPhe merge stays within the values around", "statement": "The resolution merge with ImproPhe gives each clear pixel a value between the smallest and the largest value of the 20 m band at the clear pixels at most two pixels away; it keeps homogeneous areas and pixels that are off or cloudy as they are, and gives more weight to more similar pixels.", "quantifier": "all images, all positions", "why_tests_cant": "real-valued images of any size", "anchors": ["src/modules/lower-level/resmerge-ll.c: resmerge_improphe, predict_resmerge, rescale_weight_resmerge"]}
{"id": "C192", "title": "The STARFM merge reduces by blocks and stays within the predictions", "statement": "The STARFM merge compares each pixel with the mean of its block of 2 x 2 valid pixels; the prediction is a weighted mean of those of similar pixels around, at least the pixel itself, with more weight for closer ones; without detail a homogeneous band stays as it is.", "quantifier": "all images, all positions", "why_tests_cant": "real-valued images of any size", "anchors": ["src/modules/lower-level/resmerge-ll.c: resmerge_starfm, starfm"]}
{"id": "C193", "title": "Texture products bracket the feature", "statement": "Erosion and opening are at most the feature, dilation and closing at least; gradient, top hat and black hat are not negative; opening and closing are idempotent. Pixels that are unusable or outside of the processing mask are nodata, and do not influence others.", "quantifier": "all features, structuring elements and iterations", "why_tests_cant": "images of any size, every element", "anchors": ["src/modules/higher-level/texture-hl.c: texture", "src/modules/higher-level/quality-hl.c: screen_qai"]}
{"id": "C194", "title": "Texture products do not depend on the blocks", "statement": "The value of a texture product at a pixel is the same whether a tile is processed as a whole or block by block.", "quantifier": "all features, elements, iterations and blocks", "why_tests_cant": "every division into blocks", "anchors": ["src/modules/higher-level/texture-hl.c: texture", "src/modules/higher-level/param-hl.c: parse_param_higher (radius)"]}
{"id": "C195", "title": "Spectrally adjusted values stay between the regressions that were mixed", "statement": "When reflectance is adjusted to Sentinel-2, the value written for a band lies between the smallest and the largest prediction of the regressions of the spectral clusters that are closer than 12 degrees and of the global regression. The angle to a cluster is always a number: rounding never pushes the cosine of two spectra outside of minus one to one.", "quantifier": "all spectra, cluster centres, regression coefficients and roundings of the double precision operations", "why_tests_cant": "The mixture depends on 51 angles and 10 target bands; the rounding error concerns nearly parallel spectra that a test would have to find by chance.", "anchors": ["src/modules/higher-level/spec-adjust-hl.c: spectral_predict"]}
{"id": "C196", "title": "The spectral clusters nearest to a pixel are used for its adjustment", "statement": "The regressions used for a pixel are those of the clusters closer than 4 degrees, or closer than 12 degrees and closer than the global cluster; each is used once, the ten nearest if there are more, and the global regression joins if fewer than ten are used. The weight of a regression decreases linearly with the angle. The brightness of a pixel has no influence.", "quantifier": "all angles of a pixel to the 50 clusters and the global one", "why_tests_cant": "Which clusters are nearest depends on the spectrum; a mistake for one of 50 clusters shows up only for spectra near that cluster.", "anchors": ["src/modules/higher-level/spec-adjust-hl.c: spectral_predict"]}
{"id": "C197", "title": "Spectral adjustment changes only what it should", "statement": "Images keep their number, order, sensors, bands and masks. Only images of Landsat and MODIS sensors are changed, only pixels that are usable and inside the processing mask, and only bands of the ten target domains, which are predicted from the values the source bands had before. If a band is missing, or an image of another sensor does not have exactly these ten bands, the program stops.", "quantifier": "all lists of images, band orders, masks and pixels", "why_tests_cant": "The source bands are overwritten in place; whether a prediction sees an overwritten value depends on the order of bands in the input.", "anchors": ["src/modules/higher-level/spec-adjust-hl.c: spectral_adjust", "src/modules/higher-level/spec-adjust-hl.c: spectral_predict"]}
{"id": "C198", "title": "User-defined functions see every observation at its place", "statement": "In the array that a user-defined function gets, the element for a time step, band, row and column is the value of this band of this image at this row and column, or nodata if the pixel is unusable.", "quantifier": "all blocks, numbers of images and bands, pixels, and processing masks", "why_tests_cant": "Index arithmetic of two languages with different memory order; for square blocks a transposed image looks plausible.", "anchors": ["src/modules/higher-level/py-udf-hl.c: python_udf", "src/modules/higher-level/r-udf-hl.c: rstats_udf"]}
{"id": "C199", "title": "Results of user-defined functions are written at their place", "statement": "The values that a user-defined function returns for a pixel, or for a row and column of the block, are the values of this pixel in the product.", "quantifier": "all user functions, blocks, numbers of bands and pixels", "why_tests_cant": "It has to hold for every user function; many functions treat pixels independently and hide swapped positions.", "anchors": ["src/modules/higher-level/py-udf-hl.c: python_udf, register_python", "src/modules/higher-level/r-udf-hl.c: rstats_udf, register_rstats"]}
{"id": "C200", "title": "Pixels outside of the processing mask are nodata in user-defined products", "statement": "Whatever a user-defined function does, pixels outside of the processing mask are nodata in the product.", "quantifier": "all user functions, masks and pixels", "why_tests_cant": "It has to hold for every user function.", "anchors": ["src/modules/higher-level/py-udf-hl.c: python_udf", "src/modules/higher-level/r-udf-hl.c: rstats_udf"]}
{"id": "C201", "title": "Errors in user code end the program in order", "statement": "If user code fails, or returns too few values, the program ends with an error message; it never accesses memory outside of the result.", "quantifier": "all user functions and blocks", "why_tests_cant": "It has to hold for every user function.", "anchors": ["src/modules/higher-level/py-udf-hl.c: python_udf", "src/modules/higher-level/r-udf-hl.c: rstats_udf"]}
{"id": "C202", "title": "Interpolated series covers every requested day", "statement": "With an interpolation step of INT_DAY days there is one interpolated layer for the first day of DATE_RANGE and for every INT_DAY days after it up to the last day, in chronological order, and none for other days.", "quantifier": "all date ranges, steps and interpolation methods", "why_tests_cant": "Fence-post behaviour depends on the remainder of the length of the period; tests use periods that divide evenly.", "anchors": ["src/modules/higher-level/tsa-hl.c: time_series_analysis, compile_tsa_ts"]}
{"id": "C203", "title": "Exactly the requested time series products are written", "statement": "For every index, a product is written if and only if the parameter file asks for it and it is defined for that index; everything it is computed from is computed as well.", "quantifier": "all combinations of output options, indices and polarmetrics", "why_tests_cant": "There are more than 2^140 combinations of products.", "anchors": ["src/modules/higher-level/tsa-hl.c: compile_tsa, info_tss, info_pol", "src/modules/higher-level/param-hl.c: parse_param_higher"]}
{"id": "C204", "title": "No two time series products share a file", "statement": "All products of all indices of a tile have different file names; with OUTPUT_EXPLODE all their bands have different file names.", "quantifier": "all combinations of output options, indices, images, date ranges and seasons", "why_tests_cant": "A collision overwrites data without an error and appears only for particular combinations of images and options.", "anchors": ["src/modules/higher-level/tsa-hl.c: compile_tsa_brick, compile_tsa", "src/cross-level/brick_io-cl.cpp: write_brick"]}
{"id": "C205", "title": "Time series layers are labelled with the date of their data", "statement": "Each layer of the time series, of the interpolated series and of the near-real-time product bears the date (and sensor) of the image or day it was computed for.", "quantifier": "all lists of images, date ranges, steps and fitting periods", "why_tests_cant": "Labels and values are computed in different functions with separate counters.", "anchors": ["src/modules/higher-level/tsa-hl.c: compile_tsa_brick, compile_tsa_ts", "src/modules/higher-level/interpolate-hl.c: interpolate_harmonic"]}
{"id": "C206", "title": "Harmonic interpolation is the fitted harmonic function", "statement": "Each interpolated value is the value of one harmonic function (level, optional trend, one to three waves) at its day; the function is fitted to the valid observations in the fitting period only; near-real-time values are deviations of observations after that period from it. Pixels without a fit are nodata.", "quantifier": "all series, fitting periods, masks, and regressions that minimise some measure of the residuals", "why_tests_cant": "The claim is about all series and a continuum of values.", "anchors": ["src/modules/higher-level/interpolate-hl.c: interpolate_harmonic, n_coef_harmonic"]}
{"id": "C207", "title": "Inconsistent time series parameters are refused or switched off", "statement": "The run is refused if and only if SMA is requested without endmembers or constraints, or polarmetrics for less than two years or without interpolation; options that cannot take effect are switched off, and an empty fitting period means all years from 1900 to 2100.", "quantifier": "all parameter files", "why_tests_cant": "The rules interact; the order in which they are applied matters.", "anchors": ["src/modules/higher-level/param-hl.c: parse_param_higher"]}
{"id": "C208", "title": "Chunk sizes are accepted iff they are multiples of the resolution", "statement": "A parameter file is refused if CHUNK_SIZE is not a positive multiple of RESOLUTION or RESOLUTION is not positive; otherwise these parameters are accepted.", "quantifier": "all resolutions and chunk sizes", "why_tests_cant": "The test is a floating-point remainder with a tolerance; the outcome depends on the representation of each number.", "anchors": ["src/modules/higher-level/param-hl.c: parse_param_higher"]}
{"id": "C209", "title": "Neighbourhoods have the requested radius and fit in the margin", "statement": "Radii of texture, landscape metrics and ImproPhe are refused unless they are multiples of RESOLUTION; the neighbourhood of a pixel then has exactly this radius, and the margin read around each block is at least as wide.", "quantifier": "all radii, iterations, resolutions and submodules", "why_tests_cant": "It is a relation between real-valued parameters.", "anchors": ["src/modules/higher-level/param-hl.c: parse_param_higher"]}
{"id": "C210", "title": "Ranges are put in order", "statement": "After reading the parameter file, tile ranges and the date range run from the smaller to the larger value, or the file is refused.", "quantifier": "all tile and date ranges, all submodules", "why_tests_cant": "Ranges are given by the user; each submodule uses them.", "anchors": ["src/modules/higher-level/param-hl.c: parse_param_higher"]}
{"id": "C211", "title": "Features are numbered in the order of the parameter file", "statement": "The features of the INPUT_FEATURE lines are numbered by line and by band in the line; entries with a path, without a file extension or with a negative band number are refused.", "quantifier": "all numbers of lines and bands per line, all texts", "why_tests_cant": "The numbering runs over lists of any length; models are trained and applied with this numbering.", "anchors": ["src/modules/higher-level/param-hl.c: parse_ftr, parse_param_higher"]}
{"id": "C212", "title": "Parameters that contradict each other are refused or switched off", "statement": "A parameter file whose lengths fit the resolution is accepted if and only if: DIR_MASK comes with BASE_MASK, a custom format comes with its options, ImproPhe has at least two breakpoints, prediction years are in the date range, score weights are positive exactly for the auxiliary products required, and there are as many thresholds as features. Options that cannot take effect are switched off.", "quantifier": "all parameter files of all submodules", "why_tests_cant": "The rules interact, and each submodule has its own.", "anchors": ["src/modules/higher-level/param-hl.c: parse_param_higher"]}
{"id": "C213", "title": "The first word of the parameter file selects the submodule", "statement": "The submodule and its inputs are those of the start tag that is the first word of the parameter file, whatever follows; a file with another first word is refused.", "quantifier": "all files", "why_tests_cant": "Files can have any content.", "anchors": ["src/modules/higher-level/param-hl.c: parse_param_higher"]}
{"id": "C214", "title": "Each dark target is in one cell of the AOD grid", "statement": "Dark targets (connected dark pixels) do not extend over more than one cell of the coarse AOD grid, so that the AOD of a target is that of its cell.", "quantifier": "all images, pixel sizes and cell sizes", "why_tests_cant": "Targets are connected components of any shape; the separation depends on the ratio of two resolutions.", "anchors": ["src/modules/lower-level/aod-ll.c: darkobject_list, darktarget"]}
{"id": "C215", "title": "Reflectance of a dark target is the mean of its pixels and of its surroundings", "statement": "Reflectance of a target is the mean over exactly its pixels that are valid, clear, and whose spectrum does not increase with wavelength; reflectance of its environment is the mean over the clear pixels that belong to no target within three radii, or of the scene if there are fewer than ten. Targets with fewer than ten pixels or a radius below three pixels are not used.", "quantifier": "all images, labels, cloud masks and targets", "why_tests_cant": "The sets of pixels are defined by geometry; images can be anything.", "anchors": ["src/modules/lower-level/aod-ll.c: darkobject_list"]}
{"id": "C216", "title": "AOD estimates do not depend on the schedule", "statement": "The AOD estimate of a target and library spectrum is the value on the AOD grid with the best match before the first unreasonable value; it does not depend on the number of threads and on the order of the targets.", "quantifier": "all targets, library spectra, orders of targets and assignments to threads", "why_tests_cant": "It quantifies over schedules.", "anchors": ["src/modules/lower-level/aod-ll.c: aod_from_target, aod_lib_to_target"]}
{"id": "C217", "title": "Accepted AOD spectra are plausible and the best ones", "statement": "The AOD spectrum of a valid target has a coefficient of determination between 0.1 and 1, which is the largest one over the library spectra that were not rejected; it is positive, does not increase with wavelength where it is relevant, and turbidity and exponent are within limits.", "quantifier": "all targets, libraries, wavelengths and results of the polynomial search", "why_tests_cant": "The selection is over libraries of any size and real-valued fits.", "anchors": ["src/modules/lower-level/aod-ll.c: aod_from_target"]}
{"id": "C218", "title": "The Angstrom fit is the least-squares fit", "statement": "The linear fit of log AOD to log wavelength minimizes the sum of squares over all lines, and returns turbidity and exponent if the estimates follow an Angstrom curve.", "quantifier": "all wavelengths, estimates and numbers of bands", "why_tests_cant": "Minimality is a statement about all other lines.", "anchors": ["src/modules/lower-level/aod-ll.c: aod_linear_fit"]}
{"id": "C219", "title": "The AOD map is a mean of the targets and stays in their range", "statement": "A cell of the AOD map with targets holds their weighted mean at the mean elevation of the scene, all others are flagged as interpolated; after interpolation and filtering, every cell and the AOD of the scene are between the smallest and largest AOD of the targets.", "quantifier": "all sets of targets, grids, view masks and interpolations that do not overshoot", "why_tests_cant": "Sums run over any number of targets and cells.", "anchors": ["src/modules/lower-level/aod-ll.c: aod_map, interpolate_aod_map"]}
{"id": "C220", "title": "The elevation dependency of AOD is bounded", "statement": "The scaling height of AOD is between 1.2 km and 1000 km; it is 1000 km if there are too few targets or too little relief. The arrays of the optimization are not overrun.", "quantifier": "all sets of targets and elevations", "why_tests_cant": "Arrays are allocated from one count and filled from another.", "anchors": ["src/modules/lower-level/aod-ll.c: aod_elev_dependency"]}
{"id": "C221", "title": "External AOD is that of the nearest site", "statement": "Without estimated AOD, the AOD of the scene is that of the nearest site in the file of the day of year, or the global one if there is no file.", "quantifier": "all files, scene centres and wavelengths", "why_tests_cant": "Files can have any number of lines in any order.", "anchors": ["src/modules/lower-level/aod-ll.c: aodfileread, compile_aod"]}
{"id": "C222", "title": "Co-registered bands are bilinear interpolations", "statement": "A pixel of a co-registered band is the bilinear mean, rounded to the nearest integer, of those of the four pixels around the transformed position that have data; it lies in the range of these pixels, and a transformation that moves nothing changes nothing.", "quantifier": "all images, transformations and positions, with and without nodata", "why_tests_cant": "Positions and images range over unbounded sets; borders, negative values and nodata interact.", "anchors": ["src/modules/lower-level/coreg-ll.c: register_band", "src/modules/lower-level/coregfuns-ll.c: GetTransformedCoords"]}
{"id": "C223", "title": "Quality flags agree with co-registered bands", "statement": "After co-registration, a pixel is flagged as off exactly if the reflectance has no data; other flags are those of the nearest pixel.", "quantifier": "all images, transformations and pixels", "why_tests_cant": "It relates two resampling rules for every position, including the image borders.", "anchors": ["src/modules/lower-level/coreg-ll.c: register_quality, coregister"]}
{"id": "C224", "title": "Images with too few tie points are not resampled", "statement": "An image is only resampled if at least twelve tie points support the transformation and the image is moved by at most six pixels; otherwise it is refused.", "quantifier": "all sets of tie points and images", "why_tests_cant": "The number of tie points that the dense matching finds cannot be enumerated.", "anchors": ["src/modules/lower-level/coreg-ll.c: coreg, transform_from_dm, dense_matching"]}
{"id": "C225", "title": "The linear equation solver is correct", "statement": "If the solver reports success, its result is the only solution of the equations; it reports failure exactly if the matrix is singular.", "quantifier": "all numbers of equations, matrices and right hand sides", "why_tests_cant": "Matrices of any size; singular ones are a set of measure zero.", "anchors": ["src/modules/lower-level/coregfuns-ll.c: INVSQR1"]}
{"id": "C226", "title": "Fitted transformations are least-squares fits", "statement": "The translation, affine transformation or polynomial fitted to tie points minimizes the sum of squared distances over all such transformations.", "quantifier": "all sets of tie points that determine the transformation", "why_tests_cant": "Minimality is a statement about all other transformations.", "anchors": ["src/modules/lower-level/coregfuns-ll.c: FitTranslationTransform, FitAffineTransform, FitPolynomialTransform"]}
{"id": "C227", "title": "Outlier removal keeps exactly the tie points that fit", "statement": "The tie points that are kept after a fit are those with a residual of at most twice the error of the fit, in their order; at most a quarter of the redundant tie points is removed, and the transformation is fitted again to the others.", "quantifier": "all sets of tie points and transformations", "why_tests_cant": "The removal moves array blocks in place while iterating; any pattern of outliers can occur.", "anchors": ["src/modules/lower-level/coreg-ll.c: transform_from_df, transform_from_dm, choose_transform", "src/modules/lower-level/coregfuns-ll.c: RMSE1"]}
{"id": "C228", "title": "Matching is attempted at most three times", "statement": "The search for tie points ends after at most three attempts with decreasing demands, the first one with twelve or more tie points is used, and it fails if there is none.", "quantifier": "all outcomes of the matching", "why_tests_cant": "The matching can yield any number of tie points in any attempt.", "anchors": ["src/modules/lower-level/coreg-ll.c: coreg"]}
{"id": "C229", "title": "Image pyramids are weighted means of valid pixels", "statement": "Each pixel of an image pyramid is the weighted mean of the pixels with data in the window around it, and has no data exactly if there is none; each layer has every n-th row and column of the blurred one below, for the given step n.", "quantifier": "all images, sizes, filters and pixels", "why_tests_cant": "Images of any size; the borders are handled by separate passes.", "anchors": ["src/modules/lower-level/coreg-ll.c: build_pyramidlayer", "src/modules/lower-level/coregfuns-ll.c: Conv2same"]}
{"id": "C230", "title": "Similarities of patches are between -1 and 1", "statement": "The spectral angle similarity and the correlation of two patches are the normalized inner products of the patches and of their deviations from the mean, are between -1 and 1, and zero for flat patches.", "quantifier": "all pairs of patches of equal size", "why_tests_cant": "Patches of any size and content; it rests on the Cauchy-Schwarz inequality.", "anchors": ["src/modules/lower-level/coregfuns-ll.c: SAM, corr2"]}
{"id": "C231", "title": "The base image is the most recent one that is not newer", "statement": "The base image is the file for the most recent year that is not after the year of acquisition, at most 49 years back, independently of the order of the directory; its band is the month; without such a file the image is refused.", "quantifier": "all directories and dates", "why_tests_cant": "It quantifies over all directory contents and orders.", "anchors": ["src/modules/lower-level/coreg-ll.c: coregister", "src/modules/cross-level/dir-cl.c: findfile_starts"]}
{"id": "C232", "title": "Parameter file skeletons are readable", "statement": "For every module, the parameter file skeleton that force-parameter writes, with any comments and any values in place of the defaults, is read by the module's program: there is exactly one parameter for each entry, every parameter is set, and it has the value of its own line. Comments do not matter.", "quantifier": "all modules, all comments, all values", "why_tests_cant": "Skeletons and parameters are two long lists in different files; their agreement must hold for every value a user can enter.", "anchors": ["src/main/aux-level/force-parameter.c: main", "src/modules/aux-level/param-aux.c", "src/modules/higher-level/param-hl.c: parse_param_higher, register_*", "src/modules/lower-level/param-ll.c: parse_param_lower, register_lower", "src/modules/aux-level/param-train-aux.c: parse_param_train, register_train", "src/modules/cross-level/param-cl.c: parse_parameter, prescreen_par"]}
{"id": "C233", "title": "Default values of skeletons are valid", "statement": "In an unedited skeleton, all parameters except the input files and directories that the user has to name have a value that passes the parameter check.", "quantifier": "all modules, all file systems, all roundings", "why_tests_cant": "A default that is refused makes every parameter file invalid that keeps it, whatever the other values are.", "anchors": ["src/modules/aux-level/param-aux.c", "src/modules/cross-level/param-cl.c: check_parameter"]}
{"id": "C234", "title": "Parameter file of the mixing program", "statement": "The mixing program reads its skeleton with any comments and values like the other programs: each parameter has the value of its line, and the file is refused only if a switch is neither TRUE nor FALSE.", "quantifier": "all comments and values", "why_tests_cant": "Values are free text.", "anchors": ["python/force-synthmix.py: parsePrm", "src/modules/aux-level/param-aux.c: write_par_aux_synthmix"]}
{"id": "C235", "title": "Training and validation samples", "statement": "Every sample is used either for training or for validation, with its own response and with features divided by 10000. The requested percentage of the samples, rounded down, is used for training: randomly drawn ones, or the first ones. If no sample is left for training, this is reported.", "quantifier": "all tables, percentages, sequences of random numbers and roundings", "why_tests_cant": "The random draw depends on an unbounded sequence of random numbers; the percentage is computed in float arithmetic.", "anchors": ["src/main/aux-level/force-train.cpp: main"]}
{"id": "C236", "title": "Class weights", "statement": "For classification, there is one weight for each class in the training data, in ascending order: the share of the samples, the inverse of it (normalized to a sum of one), or the given weights, which are between zero and one and sum to one. The program ends with a message if the number of given weights is not the number of classes.", "quantifier": "all responses, weights and roundings", "why_tests_cant": "Numbers of classes and samples are unbounded; sums are computed in float arithmetic.", "anchors": ["src/modules/aux-level/train-aux.cpp: class_priors", "src/modules/aux-level/param-train-aux.c: parse_param_train", "src/modules/cross-level/stats-cl.c: histogram, n_uniq"]}
{"id": "C237", "title": "Settings of machine learning models", "statement": "A given termination criterion is used, one that is zero is not, and both being zero is refused. Random forests use the given number of features and samples at a split, by default the square root or a third of the features, and 1 or 5 samples for classification or regression. Grids are three numbers in order.", "quantifier": "all settings", "why_tests_cant": "Settings are arbitrary numbers.", "anchors": ["src/modules/aux-level/train-aux.cpp: train_svm, train_rf", "src/modules/aux-level/param-train-aux.c: parse_param_train"]}
{"id": "C238", "title": "Reported quality of machine learning models", "statement": "The accuracy of a classification is the percentage of the samples whose class is predicted; the error of a regression is the root of the mean squared difference, zero exactly if all predictions are right; the line is the least-squares fit, with a coefficient of determination between zero and one.", "quantifier": "all predictions and responses", "why_tests_cant": "The numbers of samples are unbounded; the statistics are computed by recurrences.", "anchors": ["src/modules/aux-level/train-aux.cpp: predict_classification, predict_regression"]}
{"id": "C239", "title": "Concurrent writes to the same image", "statement": "When several processes write to the same image files at the same time, and whichever of them are stopped at whichever point, a file that is not locked is complete and is the result of complete writes, one after the other: for each process its first writes in its order, and all of them if it has come to its end. With updates, no valid observation gets lost.", "quantifier": "all numbers of processes, programs, interleavings of single steps and stops", "why_tests_cant": "Interleavings and crash points cannot be enumerated by tests.", "anchors": ["src/modules/cross-level/brick_io-cl.cpp: write_brick", "src/modules/cross-level/dir-cl.c: fileexist, createdir"]}
{"id": "C240", "title": "The provenance file is consistent", "statement": "A provenance file written by several processes has one header line, followed by one complete line for each recorded image, with the mode that tells whether an existing image was updated; the lines of a process are in its order.", "quantifier": "all numbers of processes, programs, interleavings of single steps and stops", "why_tests_cant": "Interleavings and crash points cannot be enumerated by tests.", "anchors": ["src/modules/cross-level/brick_io-cl.cpp: write_brick"]}
{"id": "C241", "title": "Every image is recorded", "statement": "Every image in the datacube is recorded in the provenance file, in the order in which the images were written.", "quantifier": "all processes, schedules and crash points", "why_tests_cant": "Holds or fails depending on the interleaving and on the crash point.", "anchors": ["src/modules/cross-level/brick_io-cl.cpp: write_brick"]}
{"id": "C242", "title": "Waiting for locks ends", "statement": "Processes that write to the same files do not fail because of each other, never wait for each other in a circle, and all come to their end under every fair schedule; a process that is stopped does not keep others from writing.", "quantifier": "all numbers of processes, programs and infinite fair schedules", "why_tests_cant": "Termination under every fair schedule is not observable in a finite test.", "anchors": ["src/modules/cross-level/brick_io-cl.cpp: write_brick", "src/modules/cross-level/lock-cl.c: lock_file, unlock_file"]}
{"id": "C243", "title": "Timeout of locks", "statement": "The time a process waits for a lock grows with the size of the image and is between 60 and 600 seconds.", "quantifier": "all sizes", "why_tests_cant": "A real function of an arbitrary size.", "anchors": ["src/modules/cross-level/lock-cl.c: lock_timeout"]}
{"id": "C244", "title": "Level 2 processing of an image is all or nothing per datacube", "statement": "An image is written to a datacube only after reading, angles, conversion, topography, cloud detection, co-registration, resolution merge and radiometric correction were successful for it, in this order. If everything is successful, every covering datacube gets its output once and the program ends with SUCCESS. The first step that fails ends the program with FAILURE and nothing is output afterwards; an image that is too cloudy ends it with SUCCESS and without any output.", "quantifier": "all outcomes of all steps, all numbers of datacubes", "why_tests_cant": "The combinations of outcomes of the steps cannot be enumerated by tests.", "anchors": ["src/main/lower-level/force-l2ps.c: main"]}
{"id": "C245", "title": "Level 2 parameters are accepted exactly if they are consistent", "statement": "The parameters are accepted exactly if an aerosol directory exists when the aerosol is not estimated, a DEM exists when the topography is corrected or when the DEM is a database, and an options file exists when the output format is user-defined. Without atmospheric correction, all corrections that depend on it are switched off, nothing else is changed. A projection in several words is kept with its blanks.", "quantifier": "all settings and existing files, all projection texts", "why_tests_cant": "All combinations of settings and texts.", "anchors": ["src/modules/lower-level/param-ll.c: parse_param_lower, parse_proj"]}
{"id": "C246", "title": "Water vapour map of Sentinel-2", "statement": "Every pixel with data gets the water vapour that was estimated for its 60 m block from pixels with data; pixels without an estimate get the mean of all estimates and the fill flag; pixels without data get nothing. Estimates are above 0 and at most 7 cm.", "quantifier": "all images, flags, estimates and thread schedules", "why_tests_cant": "All images and search results.", "anchors": ["src/modules/lower-level/gas-ll.c: water_vapor"]}
{"id": "C247", "title": "Water vapour does not depend on the number of threads", "statement": "The water vapour map is the same, however the rows are distributed among the threads.", "quantifier": "all images, all distributions of the rows among threads", "why_tests_cant": "Schedules cannot be enumerated by tests.", "anchors": ["src/modules/lower-level/gas-ll.c: water_vapor"]}
{"id": "C248", "title": "Lookup of tabulated transmittances", "statement": "For every cosine of an angle and every water vapour in the map (0 to 7 cm), the tabulated transmittance that is used is the one for this value rounded down to two decimals, and it has been tabulated.", "quantifier": "all float values between 0 and 1, all values of the map", "why_tests_cant": "Binary rounding of every representable number.", "anchors": ["src/modules/lower-level/gas-ll.c: gas_transmittance, fun_wvp, wvp_transmitt_lut"]}
{"id": "C249", "title": "Gaseous transmittance belongs to the water vapour of the pixel", "statement": "Every pixel with data is corrected with the transmittance of its own water vapour.", "quantifier": "all images and flags", "why_tests_cant": "All images and flags.", "anchors": ["src/modules/lower-level/gas-ll.c: gas_transmittance"]}
{"id": "C250", "title": "The true water vapour minimises the objective", "statement": "If both bands see a surface of the same reflectance, the true water vapour is a minimum of the function that is minimised; the function is zero only where both bands give the same surface reflectance.", "quantifier": "all atmospheres, reflectances and water vapours", "why_tests_cant": "A real identity for all parameters.", "anchors": ["src/modules/lower-level/gas-ll.c: fun_wvp"]}
{"id": "C251", "title": "Copies of images", "statement": "A copy of an image has the same names, provenance, position, size, tile, chunk and output options as the original, the asked number of bands and data type, and is zero in as many cells as the image (or the chunk) has. Its bands are described like those of the original if their number is the same, otherwise all like its first band. The band of a spectral domain is the first one with that domain.", "quantifier": "all images with at least one band and one provenance entry, all numbers of bands and data types", "why_tests_cant": "every product is made by copying; an option that is not copied shows up only in some product, chunk or tile", "anchors": ["src/modules/cross-level/brick_base-cl.c: copy_brick, allocate_brick, copy_brick_band, find_domain"]}
{"id": "C252", "title": "Changing the number of bands of an image", "statement": "If the number of bands of an image is enlarged, existing bands keep their values and descriptions and the new ones are 0 in all pixels of the image and described like the first; if it is reduced, the first ones stay as they are. Everything else about the image is unchanged.", "quantifier": "all images and numbers of bands of at least 1", "why_tests_cant": "all numbers of bands before and after", "anchors": ["src/modules/cross-level/brick_base-cl.c: reallocate_brick, reallocate_brick_bands"]}
{"id": "C253", "title": "Quantiles", "statement": "A quantile interpolates linearly between the sorted values; it depends on the values but not on their order, lies between the smallest and the largest value, grows with the probability, leaves the promised share of values on both sides, and scales with the values.", "quantifier": "all lists of values, all probabilities from 0 to 1", "why_tests_cant": "all sizes, ties, orders and positions between values", "anchors": ["src/modules/cross-level/stats-cl.c: quantile"]}
{"id": "C254", "title": "Cloud probability over land adapts to the scene", "statement": "The cloud probability over land is not negative, 0 for nodata and for pixels 4 K warmer than the warm quantile, and not smaller for colder and more variable pixels; at most 17.5 percent of clear land pixels (and one) exceed the threshold, which is at least CLOUD_THRESHOLD and equal to it without clear land.", "quantifier": "all images, all CLOUD_THRESHOLD of at least 0, every rounding to float", "why_tests_cant": "all distributions of temperature and variability", "anchors": ["src/modules/lower-level/cloud-ll.c: land_probability"]}
{"id": "C255", "title": "Cloud probability over water adapts to the scene", "statement": "At most 17.5 percent of clear water pixels (and one) exceed the threshold; without clear water no pixel does; colder and brighter pixels are at least as probable clouds as others that are not warmer than clear water.", "quantifier": "all images, all CLOUD_THRESHOLD of at least 0, every rounding to float", "why_tests_cant": "all distributions of temperature and brightness", "anchors": ["src/modules/lower-level/cloud-ll.c: water_probability"]}
{"id": "C256", "title": "The cloud mask of Landsat images", "statement": "A pixel is a cloud if it is bright and a potential cloud above the threshold of its surface, or bright and extremely cold or saturated; all other cloud pixels are surrounded by at least five cloud pixels. The mask does not change if all temperatures are higher by the same amount. Without bright pixels there are no clouds. All detected pixels count for the cover, which is at most 100 percent if no nodata pixel is filled.", "quantifier": "all images, thresholds and orders in which pixels are filled", "why_tests_cant": "all images; the thresholds depend on all pixels at once", "anchors": ["src/modules/lower-level/cloud-ll.c: cloud_probability"]}
{"id": "C257", "title": "Phenology-adaptive target dates", "statement": "In phenology-adaptive compositing, each of the three target dates of a pixel and year is the date of its own phenology layer in that year if it is plausible (in that year, the one before or after) and the dates of all years are close to a line; otherwise it is on the line of best fit through the plausible dates of its layer.", "quantifier": "all phenology layers, years and compositing periods (also outside of the years with phenology)", "why_tests_cant": "all patterns of missing and implausible years; the result of a layer must not depend on other layers", "anchors": ["src/modules/higher-level/bap-hl.c: compile_target_adaptive"]}
{"id": "C258", "title": "Start of the phenological year", "statement": "The start of the phenological year is the time of the year around which the values of a pixel are least, opposite to the averaged vector, around which they are concentrated; it is unique unless the values are balanced over the year, and does not depend on the unit of the values. The averaged vector is at most as long as the largest value.", "quantifier": "all time series", "why_tests_cant": "all series; an extremum over all angles", "anchors": ["src/modules/higher-level/polar-hl.c: polar_vector, polar_ts"]}
{"id": "C259", "title": "Averaged dates of polarmetrics", "statement": "The date of an averaged vector (DEV, DAV, DLV) is defined, within the phenological year of its season and, if the steps are within half a year, between the first and the last of them; the early one is not after the late one (LGV is not negative).", "quantifier": "all seasons, thresholds and windows", "why_tests_cant": "all distributions of values around the turn of the year", "anchors": ["src/modules/higher-level/polar-hl.c: ce_from_polar_vector, polar_ts"]}
{"id": "C260", "title": "Adaptive start of the phenological year", "statement": "With the adaptive option, each season starts half a year before the date of its own averaged vector, at most half a year from the regular start, up to one step; the seasons stay in order and every step belongs to exactly the season that has started.", "quantifier": "all series with seasons that follow each other, all steps, all averaged vectors", "why_tests_cant": "all combinations of shifts of neighbouring seasons", "anchors": ["src/modules/higher-level/polar-hl.c: identify_variable_seasons"]}
{"id": "C261", "title": "Processing mask", "statement": "Only the pixels whose value in the mask image is 1 are used, in every module; a tile without mask image and a chunk without such a pixel are skipped. Without DIR_MASK all pixels are used.", "quantifier": "all modules, mask images, data, quality rules and schedules", "why_tests_cant": "all images and combinations of inputs", "anchors": ["src/modules/higher-level/read-ard-hl.c: read_mask, list_mask", "src/modules/higher-level/tasks-hl.c: read_higher_level, compute_higher_level"]}
{"id": "C262", "title": "Feature input is complete", "statement": "The modules that use features compute a chunk iff all features of the tile exist and can be read (and the mask selects a pixel); the features keep the given order; a pixel of a feature is used iff the mask selects it and its value is not FEATURE_NODATA.", "quantifier": "all lists of features, contents of the disk, tiles and schedules", "why_tests_cant": "all combinations of missing, unreadable and present files", "anchors": ["src/modules/higher-level/read-ard-hl.c: read_features", "src/modules/higher-level/tasks-hl.c: read_higher_level, compute_higher_level", "src/modules/higher-level/quality-hl.c: screen_qai"]}
{"id": "C263", "title": "Secondary input is complete", "statement": "A product that needs a second set of images (adaptive composites, CF and L2 ImproPhe) is only computed if this set is complete and could be read: at least three continuous fields for adaptive composites, one otherwise, with all their bands.", "quantifier": "all modules with secondary input, contents of the disk and tiles", "why_tests_cant": "all combinations of missing, unreadable and present files", "anchors": ["src/modules/higher-level/read-ard-hl.c: read_confield", "src/modules/higher-level/tasks-hl.c: read_higher_level", "src/modules/higher-level/level3-hl.c: level3", "src/modules/higher-level/cf-improphe-hl.c: confield_improphe", "src/modules/higher-level/l2-improphe-hl.c: level2_improphe"]}
{"id": "C264", "title": "One file per product and band", "statement": "The products of a chunk, and with OUTPUT_EXPLODE their bands, are written to different files: no product or band overwrites another one of the same run, in any module.", "quantifier": "all modules, parameters, names of input files, numbers of classes, statistics and windows", "why_tests_cant": "all combinations of names and products", "anchors": ["src/modules/cross-level/brick_io-cl.cpp: write_brick", "src/modules/higher-level/level3-hl.c: compile_level3, compile_level3_brick", "src/modules/higher-level/cso-hl.c: compile_cso, compile_cso_brick", "src/modules/higher-level/ml-hl.c: compile_ml, compile_ml_brick", "src/modules/higher-level/texture-hl.c: compile_txt, compile_txt_brick", "src/modules/higher-level/lsm-hl.c: compile_lsm, compile_lsm_brick", "src/modules/higher-level/lib-hl.c: compile_lib, compile_lib_brick", "src/modules/higher-level/cf-improphe-hl.c: compile_cfi, compile_cfi_brick", "src/modules/higher-level/l2-improphe-hl.c: compile_l2i, compile_l2i_brick", "src/modules/higher-level/udf-hl.c: compile_udf, compile_udf_brick", "src/modules/higher-level/param-hl.c: parse_sta"]}
{"id": "C265", "title": "Folders of products", "statement": "The files of a product are in the folder of the tile in DIR_HIGHER; with OUTPUT_SUBFOLDERS in a folder therein that is named like the product, in every module.", "quantifier": "all modules, parameters and tiles", "why_tests_cant": "all combinations of modules and names", "anchors": ["src/modules/cross-level/brick_io-cl.cpp: write_brick", "src/modules/higher-level/level3-hl.c: compile_level3, compile_level3_brick", "src/modules/higher-level/cso-hl.c: compile_cso, compile_cso_brick", "src/modules/higher-level/ml-hl.c: compile_ml, compile_ml_brick", "src/modules/higher-level/texture-hl.c: compile_txt, compile_txt_brick", "src/modules/higher-level/lsm-hl.c: compile_lsm, compile_lsm_brick", "src/modules/higher-level/lib-hl.c: compile_lib, compile_lib_brick", "src/modules/higher-level/cf-improphe-hl.c: compile_cfi, compile_cfi_brick", "src/modules/higher-level/l2-improphe-hl.c: compile_l2i, compile_l2i_brick", "src/modules/higher-level/udf-hl.c: compile_udf, compile_udf_brick"]}
{"id": "C266", "title": "Single-band files", "statement": "With OUTPUT_EXPLODE every band of every product is a file of its own; without it every product is one file with all bands.", "quantifier": "all modules, parameters and numbers of bands", "why_tests_cant": "all numbers of bands and products", "anchors": ["src/modules/cross-level/brick_io-cl.cpp: write_brick", "src/modules/higher-level/level3-hl.c: compile_level3, compile_level3_brick", "src/modules/higher-level/cso-hl.c: compile_cso, compile_cso_brick", "src/modules/higher-level/ml-hl.c: compile_ml, compile_ml_brick", "src/modules/higher-level/texture-hl.c: compile_txt, compile_txt_brick", "src/modules/higher-level/lsm-hl.c: compile_lsm, compile_lsm_brick", "src/modules/higher-level/lib-hl.c: compile_lib, compile_lib_brick", "src/modules/higher-level/cf-improphe-hl.c: compile_cfi, compile_cfi_brick", "src/modules/higher-level/l2-improphe-hl.c: compile_l2i, compile_l2i_brick", "src/modules/higher-level/udf-hl.c: compile_udf, compile_udf_brick"]}
{"id": "C267", "title": "Reported run times are consistent", "statement": "The time report at the end of a higher-level run is consistent with what happened, whatever the interleaving of the three stages: the virtual times of input, compute and output are the summed durations of these stages, their sum is the virtual time, the real time is the time between start and end, and saved time is virtual minus real time. The times bound by the stages (waiting for one stage only) are not negative, together do not exceed the real time, and each is at most the virtual time of its stage. Without streaming, no time is reported as saved.", "quantifier": "all numbers of units, durations, clock readings and interleavings of the measurements of the three stages", "why_tests_cant": "the durations depend on the schedule of three concurrent threads in an unbounded number of iterations; a test sees one schedule", "anchors": ["src/modules/higher-level/progress-hl.c: measure_progress, bound_time, add_time, reset_time, progress, print_progress_runtime", "src/modules/higher-level/tasks-hl.c: read_higher_level, compute_higher_level, output_higher_level", "src/main/higher-level/force-higher-level.c: main"]}
{"id": "C268", "title": "Reported progress is monotone and complete", "statement": "The percentage shown during a higher-level run is computed from the number of units that have been computed, is between 0 and 100, never decreases, and is 100 when all units are computed. The remaining time shown is 0 before the first and after the last unit, and if each unit has taken the same time so far, it is that time for each remaining unit.", "quantifier": "all numbers of units up to 2^24 (remaining time: 2^22) and all roundings to nearest", "why_tests_cant": "float rounding may break monotonicity for some pair of numbers only; the pairs cannot be enumerated in tests", "anchors": ["src/modules/higher-level/progress-hl.c: percent_done, eta, processing_unit"]}
{"id": "C269", "title": "Failing units deliver no products", "statement": "A processing unit of a higher-level run delivers products only if its mask and primary input could be read, screening and spectral adjustment of its data succeeded, and the secondary input that the module needs is there; otherwise it delivers none.", "quantifier": "all outcomes of reading and of the processing steps, all input levels and modules", "why_tests_cant": "all combinations of failures in reading and processing have to be considered", "anchors": ["src/modules/higher-level/tasks-hl.c: read_higher_level, compute_higher_level", "src/modules/higher-level/level3-hl.c: level3", "src/modules/higher-level/l2-improphe-hl.c: level2_improphe", "src/modules/higher-level/cf-improphe-hl.c: confield_improphe"]}
{"id": "C270", "title": "A run that reports success has written its products", "statement": "If a higher-level run ends with exit code 0, all products that its units computed and that the user asked for are on the disk.", "quantifier": "all runs: every number of units and products, every pattern of lock timeouts and write errors", "why_tests_cant": "lock timeouts and write errors can hit any product of any unit; tests exercise none of them", "anchors": ["src/modules/higher-level/tasks-hl.c: output_higher_level, handle_no_io", "src/modules/cross-level/brick_io-cl.cpp: write_brick", "src/main/higher-level/force-higher-level.c: main"]}
{"id": "C271", "title": "Points of interest are complete corners", "statement": "When an image is co-registered to a base image, the points of interest lie at least 7 pixels away from the border, each pixel is taken at most once, and both images are valid in the window of 15 x 15 pixels around a point. The points are exactly the corners whose strength exceeds the mean strength halved once to ten times; the limit is not lowered further than needed, and if there are enough corners above 1/512 of the mean, at least the requested number is found. Nothing outside of the images is read.", "quantifier": "all image sizes, all pixel values, all results of the filters, all requested numbers", "why_tests_cant": "all image contents and sizes, in particular nodata at any place of the window and any distribution of the strength", "anchors": ["src/modules/lower-level/coreg-ll.c: points_of_interest, mask_and_base", "src/modules/lower-level/coregfuns-ll.c: FindTargetValueInWindow, ApplyMask"]}
{"id": "C272", "title": "Initial matches are close to their points", "statement": "Every initial match of co-registration belongs to a point of interest whose matching window lies in the image, has a similarity of at least the threshold, keeps 8.49 pixels distance from the border of the base image, and lies within 2.51 pixels of the point of interest.", "quantifier": "all image sizes, points, correlations and results of the least squares fit", "why_tests_cant": "the position is carried from point to point, so that the result depends on the whole sequence of points", "anchors": ["src/modules/lower-level/coreg-ll.c: initial_matching", "src/modules/lower-level/coregfuns-ll.c: imsub, LSMatching_SAM, resampling"]}
{"id": "C273", "title": "Tie points are followed through the pyramid without leaving the images", "statement": "Following the initial matches of co-registration from the coarsest layer to the full resolution never reads outside of the images. A tie point belongs to a point of interest, both images are brighter than 1000 there, its similarity reaches the threshold, and if its initial match was within 2.51 pixels, the two positions differ by at most 22.58 pixels at full resolution.", "quantifier": "all image sizes, points, correlations, results of the fits on all layers, any number of layers (reads)", "why_tests_cant": "positions at one layer depend on the results of the fits on all layers above; out-of-bounds reads show for special sizes and positions only", "anchors": ["src/modules/lower-level/coreg-ll.c: depth_first_matching, build_pyramids", "src/modules/lower-level/coregfuns-ll.c: LSMatching_SAM, resampling"]}
{"id": "C274", "title": "Dense matching accepts reliable shifts only", "statement": "In dense matching, a grid point gets a shift only if both images are brighter than 1000 there, no pixel of the image within 20 rows and columns is nodata, the match lies within 2 pixels and within the larger of 0.5 pixels and three times the error of the first transformation from the predicted position, and the similarity is at least 0.985. A bright complete window with a good fit does get its shift. Nothing outside of the images is read.", "quantifier": "all image sizes, contents, grid steps, predictions and results of the fit", "why_tests_cant": "all image contents and predicted positions, including those outside of the image", "anchors": ["src/modules/lower-level/coreg-ll.c: dense_matching", "src/modules/lower-level/coregfuns-ll.c: LSMatching_SAM, FindTargetValueInWindow"]}
{"id": "C275", "title": "The least squares fit of co-registration ends", "statement": "The iterative fit of a matching window ends for every pair of images, its result has at least the similarity it started with, and the next iteration would not increase it.", "quantifier": "all images and windows, all results of the equations solved in each iteration", "why_tests_cant": "the loop has no iteration limit; termination must hold for all data", "anchors": ["src/modules/lower-level/coregfuns-ll.c: LSMatching_SAM"]}
{"id": "C276", "title": "MODIS state flags are translated", "statement": "When a MODIS 09GA image is imported, the flags for cloud shadow, snow, water and aerosol of each pixel follow from the fields of its state word; a pixel is clear exactly if the word reports neither a cloud nor the neighbourhood of a cloud; every pixel reported as cloudy is flagged as opaque cloud or cirrus.", "quantifier": "all 16-bit state words and pixels", "why_tests_cant": "all combinations of the fields of the state word, because later fields overwrite what earlier ones wrote", "anchors": ["src/main/lower-level/force-import-modis.c: compile_qai, get_modqa"]}
{"id": "C277", "title": "MODIS fill values become nodata", "statement": "When a MODIS 09GA image is imported, a pixel with a fill value is nodata in all bands and flagged as nodata; all other pixels keep their values and are not flagged as nodata.", "quantifier": "all pixel values and state words", "why_tests_cant": "fill values may occur in any subset of the bands", "anchors": ["src/main/lower-level/force-import-modis.c: compile_qai"]}
{"id": "C278", "title": "MODIS values out of range are flagged", "statement": "When a MODIS 09GA image is imported, a pixel with data is flagged as subzero exactly if a band is negative, and as saturated exactly if a band exceeds 10000; band 6 of Aqua (the sixth in the output) is not considered.", "quantifier": "all pixel values and state words", "why_tests_cant": "all combinations of values in the bands", "anchors": ["src/main/lower-level/force-import-modis.c: compile_qai"]}
{"id": "C279", "title": "MODIS images are filed under platform, date and tile of their name", "statement": "A MODIS 09GA image is imported only if its name contains 09GA, ends with .hdf and starts with MOD or MYD; platform, tile and date of the output are those of the name; acquisitions that differ in platform, day or tile are written to different files.", "quantifier": "all file names, years, days and tiles", "why_tests_cant": "all years and days, in particular leap years", "anchors": ["src/main/lower-level/force-import-modis.c: main, set_meta", "src/modules/cross-level/date-cl.c: doy2md, set_date"]}
{"id": "C280", "title": "Written tables read back", "statement": "A table with column names that is written to a file and read again has the same column names and the rows that were not masked, in their order, each number rounded to the closest multiple of 0.01; whole numbers up to 2^53 are unchanged. In particular, the file written by force-hist contains one row for each value that occurs in the image, with the exact count.", "quantifier": "all tables with at least one written row and lines of less than 65535 characters, all names without separators, all images", "why_tests_cant": "all numbers and table sizes; printing and reading are done by different functions", "anchors": ["src/modules/cross-level/table-cl.c: write_table, read_table", "src/main/aux-level/force-hist.c: main"]}
{"id": "C281", "title": "Smoothed elevation", "statement": "Before the illumination is computed, the elevation of images with less than 30 m resolution is smoothed: each pixel with known elevation gets the mean of the known elevations in the image within 30 m, counted in whole pixels, to each side; pixels without elevation stay without, and images of 30 m or more are unchanged. Smoothing does not leave the range of the known elevations.", "quantifier": "all images, resolutions, elevations and nodata values", "why_tests_cant": "every window at every border position and every pattern of missing elevations", "anchors": ["src/modules/lower-level/topo-ll.c: smooth_topography"]}
{"id": "C282", "title": "Average elevation class of a coarse cell", "statement": "The elevation class of a coarse cell of the atmospheric correction is the mean class of the usable fine pixels in the cell, rounded to the next whole number, and 0 without usable pixel; it is between the lowest and the highest class of these pixels. No pixel is counted in two cells, and each usable pixel is counted in one.", "quantifier": "all images, resolutions, elevation classes and masks, all cells", "why_tests_cant": "all ratios of resolutions; the completeness is a statement about all cells together", "anchors": ["src/modules/lower-level/topo-ll.c: average_elevation_cell", "src/modules/cross-level/brick_base-cl.c: convert_brick_p2ji", "src/modules/lower-level/atc-ll.c: init_atc_xy"]}
{"id": "C283", "title": "Aerosol flag", "statement": "The aerosol flag of each usable pixel of the quality layer is 3 if no optical depth could be mapped, else 2 if the optical depth in the green band exceeds 0.6, else 1 if it was interpolated, else it is unchanged; other flags and pixels without data are unchanged.", "quantifier": "all quality values, optical depths and states of the map", "why_tests_cant": "all 65536 quality values and all optical depths at once", "anchors": ["src/modules/lower-level/atmo-ll.c: atmo_elevdep", "src/modules/cross-level/quality-cl.c: set_aerosol"]}
{"id": "C284", "title": "Command line of force-hist", "statement": "Options can be given before, between or after the arguments, with their value attached or in the next word; the last value of an option counts, and missing options have their default (histogram.csv, band 1). Another number of arguments, unknown options, missing values, bands below 1 and names of 1024 or more characters end the program with failure; -h, -v and -i end it with success, and nothing after them is read.", "quantifier": "all command lines", "why_tests_cant": "all orders and spellings of options, all words", "anchors": ["src/main/aux-level/force-hist.c: parse_args"]}
{"id": "C285", "title": "Command line of force-stratified-sample", "statement": "The sample is written to the file of the last -o (default sample.gpkg) in the format of the last -f (default GPKG), if both or none of them are given and the file does not exist; it is never overwritten.", "quantifier": "all command lines, all states of the file system", "why_tests_cant": "all orders of options; the violation is a statement about every command line", "anchors": ["src/main/aux-level/force-stratified-sample.c: parse_args"]}
{"id": "C286", "title": "Command line of force-tile-finder", "statement": "The point and the resolution are those of the last -p and -r, or the defaults; a point without exactly two numbers or a resolution that is not positive ends the program with failure. If the command line is accepted, the resolution is positive.", "quantifier": "all command lines and number values", "why_tests_cant": "all words and orders of options", "anchors": ["src/main/aux-level/force-tile-finder.c: parse_args"]}
{"id": "C287", "title": "Pixel reported by force-tile-finder", "statement": "The reported column and row, counted from the upper left corner of the reported tile, contain the point, and they are a column and a row of that tile.", "quantifier": "all data cubes with positive sizes, all points", "why_tests_cant": "all points, including those on the edges of tiles and left of the origin", "anchors": ["src/main/aux-level/force-tile-finder.c: main", "src/modules/cross-level/cube-cl.c: tile_find"]}
{"id": "C288", "title": "Command line of force-cube-init", "statement": "Directory, origin and tile size are those of the last -d, -o and -t, or the defaults; an origin or tile size without exactly two numbers, and a tile size that is not positive, end the program with failure. If the command line is accepted, the tile size is positive.", "quantifier": "all command lines and number values", "why_tests_cant": "all words, all numbers of items", "anchors": ["src/main/lower-level/force-cube-init.c: parse_args"]}
{"id": "C289", "title": "Critical values of the t-test", "statement": "For a significance level between 0 and 1 and at least one degree of freedom, the critical value is one that a t-distributed quantity exceeds (right), stays below (left) or exceeds in absolute value (two-sided) with the given probability: exactly with one or two degrees of freedom, to within 0.0001 with three and four. With more degrees of freedom the program's own approximation of that probability is met to within 0.0001 and the value has the right sign. Other levels and degrees of freedom are refused.", "quantifier": "all real levels, all degrees of freedom, all three tail types", "why_tests_cant": "all real levels; the iteration has no bound", "anchors": ["src/modules/cross-level/stats-cl.c: tscore, tscore_tail2twotail, tscore_Hills_inv_t, tscore_T_p"]}
{"id": "C290", "title": "Significance of a slope", "statement": "With three or four samples and a positive standard error, a slope is reported as significant exactly if the probability of a test statistic at least as extreme does not exceed the level, with the sign of the slope relative to the tested one; with fewer than three samples no slope is significant.", "quantifier": "all real slopes, standard errors and levels, all three tail types", "why_tests_cant": "all real statistics around the critical value", "anchors": ["src/modules/cross-level/stats-cl.c: slope_significant"]}
{"id": "C291", "title": "Parameter log in the metadata", "statement": "The log lists every parameter as name, colon and its values separated by blanks, with commas between parameters; it never exceeds its slot of 16384 characters, and the program ends if the text does not fit.", "quantifier": "all lists of parameters and values", "why_tests_cant": "all numbers, lengths and kinds of values; the violations are statements about whole classes of parameter lists", "anchors": ["src/modules/cross-level/param-cl.c: log_parameter"]}
{"id": "C292", "title": "Smoothing before the search for points of interest", "statement": "Each pixel of a smoothed image is the mean of the pixels around it, weighted with a Gaussian filter whose weights are positive, add up to one and decrease with the distance; at the borders, the mean over the part of the window inside of the image. Nothing outside of the image is read.", "quantifier": "all images, sizes, filters of odd width and pixels", "why_tests_cant": "all images and sizes; the violations are statements about every image", "anchors": ["src/modules/lower-level/coregfuns-ll.c: Conv2same_FLT_T, GetGaussian"]}
{"id": "C293", "title": "Points of interest for co-registration", "statement": "Points are searched in the image with the smaller standard deviation over the pixels with data in both images. A point is at least seven pixels from the border, all pixels within seven rows and columns have data in both images, and its strength is a local maximum in both directions above a threshold, which is the mean strength halved between one and ten times; if enough pixels exceed a 512th of a mean that is not negative, at least the required number is found. The search stays inside of all images and arrays, divides by no zero, and does not depend on earlier contents of memory.", "quantifier": "all pairs of images of the same size with at least seven rows and columns, all filters without negative weights", "why_tests_cant": "all images; the number of points and rounds depends on the data", "anchors": ["src/modules/lower-level/coreg-ll.c: points_of_interest, mask_and_base", "src/modules/lower-level/coregfuns-ll.c: CalcGradient2D, FindTargetValueInWindow, GetStd, ApplyMask, CalcMinMaxMeanWithMask"]}
{"id": "C294", "title": "Finding a file by part of its name", "statement": "A search by pattern and filter returns the first file in the order of the directory whose name contains both, with the directory in front, if the text fits into the buffer; otherwise it fails and leaves an empty name. The directory is closed in every case. The number of files with a pattern is the number of names that contain it.", "quantifier": "all directories (or none), names, patterns, filters and buffer sizes", "why_tests_cant": "the names, their order and the lengths are unbounded", "anchors": ["src/modules/cross-level/dir-cl.c: findfile_pattern, findfile_starts, countfile"]}
{"id": "C295", "title": "Recognising the mission of a scene", "statement": "A directory with a .txt file with MTL in its name is Landsat; otherwise one with a .xml file with S2A or MTD in its name is Sentinel-2; otherwise it is refused as unknown. The result does not depend on the order of the directory, and the resolution is the one of the mission.", "quantifier": "all directory contents whose paths are shorter than 1024 characters", "why_tests_cant": "all contents and orders of a directory", "anchors": ["src/modules/lower-level/meta-ll.c: parse_metadata_mission"]}
{"id": "C296", "title": "Granule, tile, images and elevation model of a scene", "statement": "For a .SAFE product the first L1C granule is used, any other directory as given. The tile is taken from the granule's name in both naming conventions. Each of the thirteen bands is read from its own image whatever else the folder contains and in whatever order it is listed; a granule with a missing image is refused. With a DEM database, the file for the reference system of the scene is used and exists.", "quantifier": "all paths, folders, names and orders", "why_tests_cant": "all folder contents and orders; file names of any length", "anchors": ["src/modules/lower-level/param-ll.c: parse_param_lower", "src/modules/lower-level/meta-ll.c: parse_metadata_sentinel2, append_reference_system_to_dem"]}
{"id": "C297", "title": "Labels for user-defined functions", "statement": "A user-defined function gets for every time step the year, month, day and sensor of the product at this position, and for every band its name, data bands before auxiliary bands; in the time series submodule the dates and names of the interpolated time steps and the name of the index. Python and R get the same labels. Nothing is written outside of the arrays, and nothing of their earlier contents remains.", "quantifier": "all numbers of products and bands, all texts shorter than 1024 bytes, all earlier contents of memory", "why_tests_cant": "the number of products and bands is unbounded; the texts are arbitrary", "anchors": ["src/modules/higher-level/py-udf-hl.c: python_label_dimensions", "src/modules/higher-level/r-udf-hl.c: rstats_label_dimensions"]}
{"id": "C298", "title": "Names and dates of the output bands of user-defined functions", "statement": "Each output band has the name that the user's initialization returned at its position, and the date with which this name starts, or no date. The names are used only while they exist in memory, and no name crashes the program.", "quantifier": "all lists of names", "why_tests_cant": "all names of all lengths; the date depends on uninitialized memory and on the bands before", "anchors": ["src/modules/higher-level/py-udf-hl.c: init_pyp", "src/modules/higher-level/r-udf-hl.c: init_rsp", "src/modules/cross-level/date-cl.c: date_from_string"]}
{"id": "C299", "title": "Image pyramids of the co-registration", "statement": "For the co-registration, an image is reduced to four layers. The finest one shows the image at clear pixels and no data at clouds, cloud shadows and outside of the data; each further layer has half of the rows and columns (rounded down) of the one before and holds its blurred pixels in every second row and column. What the image shows at pixels that are not clear has no influence on any layer; an image without clear pixels gives layers without data.", "quantifier": "all images, sizes, quality layers and filters", "why_tests_cant": "images of any size and content; every pixel of every layer depends on a window of the layer before", "anchors": ["src/modules/lower-level/coreg-ll.c: build_pyramids, build_pyramidlayer"]}
{"id": "C300", "title": "Grid and search range of dense matching", "statement": "The grid of dense matching has a step of at least three pixels, of a 36.6th of the shorter side for an image that is all land, and never a larger one with less land; land is counted at clear pixels only. The matching windows are enlarged as far as in depth-first matching on the same layer.", "quantifier": "all image sizes, amounts of land, numbers of layers and ranges", "why_tests_cant": "sizes and numbers of layers are unbounded", "anchors": ["src/modules/lower-level/coreg-ll.c: coreg, cumulative_scale, dense_matching, depth_first_matching"]}
{"id": "C301", "title": "Downloaded files are complete", "statement": "Whatever happens to a transfer, and wherever the program is stopped, a local file of force-lut-modis that later runs will use holds the complete remote file.", "quantifier": "all sequences of transfers, interruptions, crash points and runs", "why_tests_cant": "the behaviour of the network and the points of interruption are unbounded", "anchors": ["src/modules/cross-level/download-cl.c: download_file, curl_write_download", "src/modules/lower-level/modwvp-ll.c: create_wvp_lut, compile_modis_wvp"]}
{"id": "C302", "title": "Attempts to download a file", "statement": "A file is transferred at most ten times in a run, not at all if it is there or on a day with an outage of the satellite, and not again once it is there or the server has said that there is no such file. If any of the ten transfers delivers it, it is used; otherwise the run goes on without it.", "quantifier": "all behaviours of the server", "why_tests_cant": "sequences of outcomes of transfers", "anchors": ["src/modules/lower-level/modwvp-ll.c: create_wvp_lut, compile_modis_wvp"]}
{"id": "C303", "title": "The file of a granule", "statement": "The water vapour of a granule is read from the file whose name the listing of the day gives for the sensor, date and time of the granule; a granule that is not listed is left out. No local file that is there is ever changed.", "quantifier": "all names, listings, local files and servers", "why_tests_cant": "listings and names are arbitrary texts", "anchors": ["src/modules/lower-level/modwvp-ll.c: compile_modis_wvp"]}
{"id": "C304", "title": "Credentials for the download", "statement": "The requests carry the key of the first line of the file .laads in the directory named by FORCE_CREDENTIALS, or else in the home directory, complete and without line end. Without such a file, or if the key does not fit, the program ends with an error.", "quantifier": "all environments, files and keys", "why_tests_cant": "keys and names are arbitrary texts", "anchors": ["src/modules/lower-level/modwvp-ll.c: get_laads_key"]}
{"id": "C305", "title": "Copying of metadata between images", "statement": "force-mdcp gives the second image FORCE's metadata and the band names of the first one, for the image and for each band; its pixels, its other metadata and all other images stay as they are. If one of the images cannot be opened or the numbers of bands differ, it fails and changes nothing. A later copy replaces an earlier one completely.", "quantifier": "all images, numbers of bands and metadata", "why_tests_cant": "numbers of bands, domains and items are unbounded", "anchors": ["src/main/aux-level/force-mdcp.c: main"]}
{"id": "C306", "title": "Choice of the datacubes from PROJECTION", "statement": "With PROJECTION = EQUI7 or GLANCE7 all seven continents have a datacube; with the code of a continent appended (EQUI7-AF, GLANCE7-AF, ...) exactly this continent has one; with any other projection, or without reprojection, there is one datacube from the parameter file.", "quantifier": "all texts of PROJECTION", "why_tests_cant": "the projection is an arbitrary text (a WKT string)", "anchors": ["src/modules/lower-level/cube-ll.c: start_multicube", "src/modules/lower-level/equi7-ll.c: projname7, start_equi7cube", "src/modules/lower-level/glance7-ll.c: projname7, start_glance7cube"]}
{"id": "C307", "title": "Names in the EQUI7 dictionary", "statement": "The dictionary of an EQUI7 datacube has one line for each tile with its name in the datacube and its name in EQUI7. The latter has the distance of the lower left corner of the tile from the left and the lower end of the grid in tiles of 100 km. Different tiles have different names in both systems, also across continents.", "quantifier": "all lists of tiles of a continent, all tiles", "why_tests_cant": "any list of tiles", "anchors": ["src/modules/lower-level/equi7-ll.c: write_equi7dict, start_equi7cube"]}
{"id": "C308", "title": "The EQUI7 dictionary is complete", "statement": "After a run the dictionary of each EQUI7 datacube that was started is complete; a dictionary that exists is not changed; if it cannot be written the program fails in an orderly way.", "quantifier": "all directories, lists of tiles, crash points and later runs", "why_tests_cant": "crash points while the file is written, and the runs after that", "anchors": ["src/modules/lower-level/equi7-ll.c: write_equi7dict, start_equi7cube"]}
{"id": "C309", "title": "Output of images that are not tiled", "statement": "If a scene is not tiled, either all of its products or none are in the directory of the scene, each one combined with the image of the same name that was there, and no other file is changed; processing a scene again does not change its images; images of different continents are kept apart.", "quantifier": "all scenes, lists of products, images on disc and failures", "why_tests_cant": "any history of images and any failing write", "anchors": ["src/modules/lower-level/cube-ll.c: flush_level2, cube_level2", "src/modules/cross-level/brick_io-cl.cpp: write_brick", "src/main/lower-level/force-l2ps.c: main"]}
{"id": "C310", "title": "Texture and landscape products are those that were asked for", "statement": "The texture and the landscape metrics module write exactly the products that are listed in the parameter file, each one once and with the image of its own metric, whatever the order of the list and however often a metric is repeated.", "quantifier": "all lists of metrics", "why_tests_cant": "lists of any length and order", "anchors": ["src/modules/higher-level/param-hl.c: parse_txt, parse_lsm", "src/modules/higher-level/texture-hl.c: compile_txt, texture", "src/modules/higher-level/lsm-hl.c: compile_lsm, landscape_metrics", "src/modules/cross-level/enum-cl.c: _TAGGED_ENUM_TXT_, _TAGGED_ENUM_LSM_"]}
{"id": "C311", "title": "No list of granules is asked for on days without data", "statement": "For every day, force-lut-modis asks for the list of granules of Terra unless the list is there or the day is one of the known outages (6-17 August 2000, 16 June-2 July 2001, 20-27 March and 15 April 2002, 17-23 December 2003, 21-22 December 2008), and for that of Aqua unless the list is there, the day is before 3 July 2002 or one of the known outages (30 July-7 August and 13 September 2002). On the days left out the local files are not changed.", "quantifier": "all days, answers of the servers and states of the local files", "why_tests_cant": "unbounded set of days and of answers", "anchors": ["src/modules/lower-level/modwvp-ll.c: failure_terra, failure_aqua, create_wvp_lut"]}
{"id": "C312", "title": "Endmember files are checked", "statement": "An endmember file is accepted exactly if all its values are numbers in [0,10000] and it has one row for each band; the spectra used are then the values divided by 10000. In all other cases the program stops before the first block.", "quantifier": "all endmember files and numbers of bands", "why_tests_cant": "tables of any size and content", "anchors": ["src/modules/higher-level/read-aux-hl.cpp: read_endmember, read_aux"]}
{"id": "C313", "title": "The AOD spectrum is fitted to the chosen bands", "statement": "For every choice of bands, the polynomial is fitted to the pairs of wavelength and AOD of exactly these bands, with equal weights, and no memory outside of the data is touched.", "quantifier": "all choices of bands, wavelengths, AOD values and coefficients", "why_tests_cant": "all choices of bands and real values", "anchors": ["src/modules/lower-level/aod-ll.c: aod_polynomial_fit, aod_polynomial_minimizer, aod_from_target"]}
{"id": "C314", "title": "The coarse grid of the atmospheric correction covers the image", "statement": "For every image with a resolution of whole metres, the grid has the smallest number of 5 km cells that cover the image in both directions; every pixel is assigned to the cell that contains its upper left corner, and this cell is inside of the grid. If there are more than 65535 cells, the program stops before anything is computed.", "quantifier": "all image sizes, resolutions and pixels; all ways to round in double precision", "why_tests_cant": "every size of the image and every pixel", "anchors": ["src/modules/lower-level/atc-ll.c: init_atc_xy", "src/modules/cross-level/brick_base-cl.c: convert_brick_ji2p, convert_brick_ji2ji, set_brick_ncols, set_brick_res"]}
{"id": "C315", "title": "Patches are compared pixel by pixel before they are matched", "statement": "In co-registration, two image patches are rejected as too different exactly if the mean absolute difference between pixels at the same place of both patches, rounded to an integer, reaches the threshold; no pixel outside of the patches is read.", "quantifier": "all sizes and contents of the patches, for which the rounded mean difference is a 16 bit number, and all thresholds", "why_tests_cant": "patches of any size and content", "anchors": ["src/modules/lower-level/coregfuns-ll.c: GetMeanDiff, LSMatching_SAM"]}
{"id": "C316", "title": "The scale height of aerosols is estimated from all dark targets", "statement": "The scale height with which AOD decreases with elevation is estimated from elevation and AOD of exactly the dark targets with an AOD estimate, and without access outside of their arrays. It is always between 1.2 and 1000 km, and 1000 km (no dependency) if there are less than four such targets, if the elevation of the image or of the targets varies by 0.1 km or less, or if the search finds no minimum.", "quantifier": "all sets of targets, outcomes of the AOD estimation and of the search", "why_tests_cant": "unbounded sets of targets and all outcomes", "anchors": ["src/modules/lower-level/aod-ll.c: aod_elev_dependency, aod_from_target, compile_aod"]}
{"id": "C317", "title": "The scale height removes the trend of AOD with elevation", "statement": "The quantity that is minimized over the scale height is the absolute slope of the least squares line of AOD brought to sea level against elevation; it has its minimum at the true scale height if AOD decreases exponentially with elevation.", "quantifier": "all targets at different elevations and all scale heights", "why_tests_cant": "real values, any number of targets", "anchors": ["src/modules/lower-level/aod-ll.c: aod_elevation_minimizer"]}
{"id": "C318", "title": "Memory of nested arrays and tables is given back completely and once", "statement": "Freeing a two- or three-dimensional array with the sizes it was allocated with, and freeing a table, gives back exactly the memory that the allocation obtained, whatever else is in use and whichever names the table has, and nothing is freed twice. A wrong number of rows leaves memory in use or is undefined behaviour. Freeing a table again has no effect.", "quantifier": "all heaps, numbers of rows, columns and layers, tables with and without names", "why_tests_cant": "sizes are unbounded; leaks and double frees are not visible in results", "anchors": ["src/modules/cross-level/alloc-cl.c: alloc_2D, alloc_2DC, alloc_3D, free_2D, free_2DC, free_3D", "src/modules/cross-level/table-cl.c: allocate_table, free_table"]}
