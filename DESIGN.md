# Formal model of davidfrantz/force in Lean 4

## 1. Approach

The code in `/repo` (C, C++, bash) is transcribed, function by function, into
small total computable Lean functions. Each definition cites the file and lines
it models. The property theorems live in files of their own (`*/Props.lean`),
separate from the model (`*/Model.lean`) and the helper lemmas (`*/Lemmas.lean`).
Where a property needs a notion the code does not have (a path in an image, a
valid calendar date, the list a FIFO stands for), it is defined independently of
the model in a `Spec` section or file.

Conventions

* `int` values are `Int` (or `Nat` where the code can only have non-negative
  values); a hypothesis states the range when overflow would matter. 16-bit
  quality words are `BitVec 16`. `short` conversions are explicit.
* Undefined behaviour (out-of-bounds access, use of an unset pointer) is a
  distinct outcome (`none`/`Outcome.ub`), never silently a default value.
* `exit(1)` on allocation failure or buffer overflow is a distinct outcome.
* Floating point: where the code uses float/double for what is an integer
  computation (`floor(ce/365.0)`), the model uses the exact rational/integer
  operation, and says so; where rounding matters for the claim (the tile number
  in `forward_processing_unit`), IEEE-754 single precision rounding is modelled.
  Statistics are modelled in exact arithmetic over a field.
* Parallel loops (`omp for`) are modelled as executing the loop bodies in an
  arbitrary order given as a permutation/schedule; properties say that the
  result does not depend on it (or prove that it does).
* External components (GDAL, GSL, libc `malloc`, file system, lock files) are
  parameters or small abstract states of the model.

Where the code does not satisfy a property a user would rely on, the model
stays faithful, the negation is proved with a concrete witness
(`..._violated`), and the part that does hold is proved as a theorem with the
suffix `_partial`. Section 4 lists these disagreements.

## 2. Plan per property

| id | module | model | proof |
|----|--------|-------|-------|
| C01 | Date | threshold tables `doy2md`, `doy2m`, `doy2d`, `md2doy` | case analysis by `omega` over the whole (unbounded) domain hypotheses |
| C02 | Date | `date2ce`, `ce2date`, `ce2doy`, `ce2year` over `Int` | floor-division lemmas, C01 |
| C03 | Date | `date2ce` | lexicographic case split, omega |
| C04 | Date | date record and all setters as state transformers | invariant by induction over call sequences |
| C05 | Date | tokeniser, `atoi`, `date_from_string` with the caller's record as state | decision logic; violated parts as counterexamples |
| C06 | Date | `set_secs` | division lemmas; violated for the year constant |
| C07 | Qai | `set_qai`/`get_qai` on `BitVec 16` with C integer promotion | bit-extensionality |
| C08 | Qai | `merge_qai_from_values` | flag-wise lattice laws |
| C09 | Qai | `use_this_pixel`, `screen_qai` | decision logic; fold over pixels in any order |
| C10 | Noise | outlier loop and restore phase of `screen_noise`, residuals abstract | well-founded measure, invariant |
| C11 | Queue | ring buffer | refinement to a bounded list |
| C12 | Recon | all three phases of `greyscale_reconstruction_` on top of the queue | loop invariants, path induction |
| C13 | Dist | both phases of `dist_transform_` | lower-envelope invariant |
| C14 | Buffer | `buffer_` incl. midpoint circle loop | set of writes; border violation |
| C15 | Majorfill | `majorfill_` under row schedules | violated: two schedules, two results |
| C16 | Tile | `tile_find` loops over a linear ordered field | loop invariants |
| C17 | Tile | `tile_align` | loop invariant |
| C18 | Tile | `tile_active`, `tile_allowlisted` | list reasoning |
| C19 | Cube | `read_datacube_def` on tag/value lines, `write_datacube_def` | round trip |
| C20 | Cube | interleaving transition system of writers | invariant; violated race |
| C21 | Pipeline | `progress` state machine and the main loop | trace by induction |
| C22 | Pipeline | per-iteration slot footprints, interleavings | commutation of disjoint updates |
| C23 | Pipeline | `forward_processing_unit` with binary32 rounding | error analysis of rounding; violated from 2^24 |
| C24 | Pipeline | `handle_no_io` | decision logic |
| C25 | Brick | `crop_brick` per data type | index arithmetic; violated for 4 of 5 types |
| C26 | Brick | chunk-wise file assembly | induction over chunks; violated for stale files |
| C27 | Brick | per-pixel mosaicking | case analysis, induction over writes |
| C28 | Brick | lock/return paths of `write_brick` | violated; partial for the success path |
| C29 | Str | bounded copies on a byte buffer | memory frame |
| C30 | Str | `replace_string` with `size_t` arithmetic | violated; partial |
| C31 | Str | string vectors | induction over fills |
| C32 | Alloc | `re_alloc*` on lists | index reasoning; 2DC violated |
| C33 | Path | `basename_*`, `directoryname`, `extension` | list reasoning |
| C34 | Param | `parse_parameter` over lines | induction over lines |
| C35 | Param | `check_parameter` | decision logic |
| C36 | Stats | recurrences over a field | induction, `field_simp`/`ring` |
| C37 | Stats | scans after sorting | counting lemmas |
| C38 | Interp | `interpolate_linear` with carried `t_left` | refinement to a stateless specification |
| C39 | Interp | `interpolate_moving` | same |
| C40 | Interp | `interpolate_rbf` windows | same, plus bounds |
| C41 | Fold | `fold` | filter/fold |
| C42 | Stm | `tsa_stm` | fold, permutation invariance |
| C43 | Cso | window enumeration, window assignment, gaps | telescoping sums |
| C44 | L2queue | queue file lines, `sed` update, workers | induction over interleavings; substring violation |
| C45 | Bap | selection loop | argmax; out-of-bounds violation |
| C46 | Sample | `sample_points` over chunks | history invariant |
| C47 | Brick | `convert_brick_*` | floor arithmetic |
| C48 | Table | `read_table` statistics | fold; violated outside the short range |
| C49 | Str | `char_to_int` | digit induction; octal violation |
| C50 | Season | temporal window, image filter, labels of folded layers | loop lemmas; one-day violation |
| C51 | Stats | regression coefficients from the one-pass estimates | algebraic identity for the sum of squared residuals |
| C52 | Noise | residual of a triple of observations with C integer division | compared with rational interpolation; violated when the slope is not an integer |
| C53 | Bap | thread-private buffers over a sequence of pixels | induction over the history; violated for corrupt targets |
| C54 | Bap | target dates, Gaussian and sigmoid scores | monotonicity of exp; degenerate targets violated |
| C55 | Bap | `bap_weighting` | fold = sums; weighted mean bounds; null pointer violated |
| C56 | Bap | `corr_matrix` | Cauchy–Schwarz by induction |
| C57 | Bap | BAP part of the parameter parser | case analysis |
| C58 | Sample | get_brick_x/y, restriction to the active part of an image | direct computation for all rows and columns |
| C59 | Strat | pre-selection, search for the largest random number, thinning of the classes | invariant of the thinning loop, induction over the classes |
| C60 | Trend | `trend` per pixel over exact reals, conversions to `short` as partial functions; least squares from Stats | algebra (sums of squares), uniqueness of the best fit; witnesses for 0/0 and overflow |
| C61 | Trend | `cat` per pixel: search for the change, three parts | invariant of the search; refinement of each part to the regression; witnesses |
| C62 | Trend | `standardize_timeseries` per pixel over exact reals | induction over the series; witnesses |
| C63 | Polar | `polar_ts` gap filling over exact rationals | induction over the series with the nearest valid neighbours |
| C64 | Polar | day to radians and back with all roundings to float and double | the roundings are determined for all 366 days (uniqueness of the nearest number), composed with the calendar of C02 |
| C65 | Polar | `identify_regular_seasons` | invariant over the series; witness for late starts |
| C66 | Polar | `accumulate_seasons`, event search of `polar_ts` | refinement of both loops to running totals; order from monotonicity; witnesses |
| C67 | Polar | integrals and rates of `polar_ts` | induction; witnesses |
| C68 | Sensor | `retrieve_sensor` with its helpers; JSON documents as values | refinement of the loops to set operations; positions by induction |
| C69 | Sensor | the same with array lengths and null texts as undefined behaviour | case analysis along the code; witnesses for all valid configurations |
| C70 | Sensor | `retrieve_indices`, marking and in-place removal of bands | the shifting loop is refined to a filter; membership by induction |
| C71 | Sensor | dispatch of `tsa_spectral_index`, domain lookup, bands read by `read_chunk`, shipped definitions | composition of the mappings |
| C72 | Index | `index_differenced` with single precision roundings as parameters | error and monotonicity of correctly rounded operations |
| C73 | Index | `index_resistance` | forward error analysis; universally quantified overflow |
| C74 | Index | `index_tasseled`, `index_cont_remove` | forward error analysis of the sums |
| C75 | Index | `index_kernelized`, `exp` as a parameter with an error bound | error analysis, identity with tanh |
| C76 | Index | `index_ratio_minus1`, `index_msrre`, `sqrt` as a parameter with an error bound | error analysis; NaN for ratios below -1 |
| C77 | Index | the loops over dates with both masks | induction over the series |
| C78 | Unmix | `index_unmixed`, active set method over an arbitrary arithmetic | a potential (active elements, remaining inner iterations) decreases |
| C79 | Unmix | the same in exact arithmetic, linear algebra as a parameter that solves the normal equations | invariant, convexity of the squared error |
| C80 | Unmix | the appended row of ones | equivalence with the fit of the bands |
| C81 | Unmix | shade normalization, selection and conversion | case analysis |
| C82 | Unmix | masks and residuals | sums over the appended row |
| C83 | Halo | `read_chunk` window, `add_chunks` | rectangles of the nine neighbours partition the mosaic; induction over the neighbours |
| C84 | Halo | file name replacement of `add_chunks` | first occurrence, invariant over the neighbours |
| C85 | Ccl | `connectedcomponents_`, `ccl_tracer`, `ccl_contourtrace` | contour states form closed orbits (injective step); parity of crossings separates inside and outside; scan invariant |
| C86 | Ccl | `binary_to_objects` | from C85, whole segments are removed; counting |
| C87 | Lsm | `landscape_metrics` for one feature | from C86; invariant over the pixels of a thread |
| C88 | Lsm | the same, with threads as lists of pixels | the arrays of a thread are zero outside of the listed patches, so the reset gives the initial state |
| C89 | Lsm | the loop over the kernel, AVG, STD, MAX, GEO, ARE | summary of the loop by induction, C36 for the recurrence |
| C90 | Lsm | the loop over the kernel, UCI, MPA, EDD, NBR, EMS, FDI | the same; one representative per patch; injection of edges into positions; rounding for the 11 x 11 kernel |
| C91 | Ml | `machine_learning` for one pixel | invariant over the models of a set, then over the sets (index of the first model); C37 for the mode |
| C92 | Ml | the same, for regressions | invariant: the state is that of the recurrence over the predictions so far, none of which settled |
| C93 | Ml | the same, with votes | sums by column; error bound of the two rounded operations against the distance to integers; extrema of the truncated numbers |
| C94 | Lib | `library_completeness` for one pixel, rescaling of `read_libraries` | sums over the valid features; minimum by induction over the rows |
| C95 | Ovv | loop of `level3` over the pixels | induction over the order of the pixels |
| C96 | Ovv | `bap_overview` | bounds of truncated products; case distinction |
| C97 | Imp | `average_season` for one pixel | fold invariant of sums and counts; first matching window is the only one |
| C98 | Imp | `improphe`, with `exp` as a parameter, and rounding of the mean | convex combination; gap between floating point numbers near integers; cardinality of the set of neighbours |
| C99 | Imp | `level2_improphe` (principal components are a parameter) | C98 for the masked image |
| C100 | Imp | `focal_sd`, `standardize_float` | recurrence of C36; permutation of the window |
| C101 | Imp | `confield_improphe` | C98 for the masked image; induction over the years |
| C102 | Pca | `pca`, with the eigenvalue solver as a parameter | sums of products over finite index sets; characterisation of the search for the number of components |
| C103 | L2tile | `tile_level2`: offsets, copies and geotransformations of the products | integer arithmetic on the grid; uniqueness of division with remainder; rounding of the offset to nearest |
| C104 | L2tile | `tile_level2`: counts of data and clouds | fold counts the elements of a set; shifted sets have equal size |
| C105 | L2tile | `start_datacube`, transformation is a parameter | monotony of `tile_find`; a bilinear function is bounded by its corners |
| C106 | L2tile | `fmod` with tolerance, number of pixels, number of chunks | division with remainder; rounding to nearest is exact on integers; concrete doubles as witnesses |
| C107 | L2tile | `cover`, loop over the datacubes | decision logic; uses C104 |
| C108 | Sun | `sunJC` with the roundings of `float` and `double` | induction over years for the calendar; representable numbers near 2^21 are quarters |
| C109 | Sun | `sunpos`, `doy2dsun` over the reals, refraction | spherical trigonometry: components of the unit vector; bounds of polynomials and tangents |
| C110 | Sun | `localtime2gmt`, `standard_sunzenith` | floor arithmetic; monotony of the tangent |
| C111 | View | `viewgeo`: search of the corners, as a fold over the pixels | invariant over the processed pixels |
| C112 | View | nadir line and view zenith, real numbers | identity for the squared distance to any point of the line; tangent of arccosine |
| C113 | View | view azimuth with `atan2` (argument of a complex number), coordinates as `get_brick_geo` computes them | direction vector of the azimuth; violations proved for all lines |
| C114 | View | location of coarse cells, low sun flag | `scale_exact` for the cell of a pixel; violation for every row but the first |
| C115 | View | rows and columns of a coarse cell with float roundings | error bounds of rounding; violation with concrete roundings |
| C116 | L1 | `bounds_level1`: the search over the bands as a recursion with `break`, the count of valid temperatures, `buffer_` of Buffer | decomposition of the list of bands at the band that ends the search; `buffer_spec` |
| C117 | L1 | `impulse_noise_level1` as a fold over the inner pixels in row order | state at the time of a pixel, from sortedness of the pixels; recurrence for the variance from C36; cases of the order |
| C118 | L1 | `convert_level1`, Landsat, real numbers with conversion to 16 bits | inverse of Planck's law by exponential and logarithm, monotonicity; induction over the bands |
| C119 | L1 | `convert_level1`, Sentinel-2, with roundings to `float` | error bounds of rounding; violation by computing the only nearest numbers |
| C120 | Tools | `force-hist`: the counting loop and the masked table | induction over the pixels; the sum by induction over the rows |
| C121 | Tools | `force-stack`: tests and order of the bands | cases of the tests; position in a list of blocks by induction |
| C122 | Tools | `force-tabulate-grid`: bounding box of the corners, loop over tiles, with `tileFind` of Tile | fold of minima and maxima; monotonicity of `tileFind` |
| C123 | Tools | `force-tile-finder` | integer part as column and row; edge convention of C16 |
| C124 | Tools | `force-qai-inflate` with the getters of Qai | documented bits of C07; mixed radix |
| C125 | Cloud | `finalize_cloud` with `buffer_` of Buffer and the getters and setters of Qai | distances of C14; cases of the last loop; counting by filter |
| C126 | Cloud | `shadow_probability`: marker of a thread, merging of threads, with `greyscale_reconstruction_` of Recon | levels of C12; fold of minima, permutation of threads |
| C127 | Cloud | `cloud_parallax`: cores, queue based region growing with Queue, ratios on the coarse grid | invariant of queue and mask; fuel by the number of cells; reachability by induction |
| C128 | Cloud | `detect_clouds`: decisions after the stages | cases; cover of C125 |
| C129 | Cloud | `cloud_distance` with the distance transformation of Dist | C13; rounding |
| C130 | Cloud | `shadow_matching`: sampling, match at a height, drawing | induction over heights; union over objects |
| C131 | Cloud | `potential_cloud`: tests of one pixel; decision of `cloud_probability` | algebra of the indices; bounds of the conversion |
| C132 | Ard | `list_ard`, `product_ard`, `sensor_ard` and the selection in `read_ard`, with the string, date and season functions of Str, Date, Season | substrings do not cross separators; induction over the directory |
| C133 | Ard | names of the companions; errors of `read_ard` over threads | first occurrence of a word; induction over images and threads |
| C134 | Ard | `reduce_psf` over the real numbers | bounds of weighted means; floor and ceiling of the footprint |
| C135 | Ard | `find_sigma`, `gauss_kernel` over the real numbers | monotonicity of the exponential; Archimedean bound for the loop |
| C136 | Ard | end of `read_mask`, quality in `read_ard` and `read_features` | induction over bands with C07 |
| C137 | Gdalopt | `parse_gdaloptions` on the text of a file with `read_tagvalue` and the string vectors of Str | induction over lines with the invariant of the vectors |
| C138 | Gdalopt | `default_gdaloptions`, `copy_gdaloptions`, options as assembled before `Create` | induction over the chain of copies |
| C139 | Gdalopt | option arrays as lists of pointers, GDAL's walk to the NULL pointer | cases; induction over the array |
| C140 | Wvp | main loop, `date_plus` with `mktime` normalisation and daylight saving as a parameter, `parse_date_range` on text | calendar successor proved by cases; induction over the number of days left |
| C141 | Wvp | geometa lines, relative longitudes, `modis_intersect`, `modis_inside` over rationals | half-plane algebra of quadrilaterals; cases of the offset |
| C142 | Wvp | pixel loops with counters of the coarse geolocation | induction over rows and columns, refinement to filtered lists |
| C143 | Wvp | `choose_modis_wvp`, table of a day | cases, lists by index |
| C144 | Wvp | text written and read with `fprintf`, `fgets`, `strtok`, `atof`; location file | rounding error bounds; induction over lines |
| C145 | Wvp | one-pass mean and variance over the daily tables | reduction to the variance theorem C36 |
| C146 | Wvp | `water_vapor_from_lut` on the texts of both tables | induction over lines with the closest location as invariant |
| C147 | Cite | flags of the references, checksum on 32 bit words, directory as map from names to lists | induction over citations and runs; linearity of the checksum |
| C148 | Prod | `fequal` with single precision rounding as a parameter, `is_nodata` | relative error of the rounding, spacing of floats |
| C149 | Prod | weights of the four cells and interpolation, accesses checked | cases of the position, algebra of convex combinations |
| C150 | Prod | band loop over one buffer and quality bits, radiative transfer as a parameter | invariant over the bands: sources at or after the target |
| C151 | Prod | all products of `compile_level2` in order | composition with C150 and flag lemmas |
| C152 | Prod | size, sampling, stretch and colours | floor arithmetic; case distinction against the legend as a list |
| C153 | Prod | `compile_l2_dst` with the distance transform of C13 | refinement to nearest pixel |
| C154 | Prod | row and column passes of the moving average in both directions, weights of the rings | induction over lines, relational induction for two images |
| C155 | Mix | drawing of fractions with the rounding of double precision as a parameter | invariant over the drawn fractions, error bounds of the rounding |
| C156 | Mix | drawn classes and fractions of a mixture, labels, response lines | algebra over lists; witness with a second sample of the target class |
| C157 | Mix | class likelihoods: counting, pairing with the list of classes, selection, normalisation | list lemmas about zip, lookup and counting |
| C158 | Assess | confusion matrix over `Fin k`, adjusted shares, areas and intervals | algebra of finite sums against the published estimators |
| C159 | Assess | `acc_metrics`, standard errors | algebra of finite sums |
| C160 | Assess | variance of the producer's accuracy | comparison with eq. 7, monotonicity for the violation |
| C161 | Assess | classes, counting, sorting and comparison of tables | permutations and sorted lists |
| C162 | Assess | number of samples | floor of a square, bound of the standard deviation |
| C163 | Assess | proportional allocation and compromise | error of rounding, sums over filtered lists |
| C164 | Magic | detection of vectors, brace expansion, replacement by sed, on the characters of the lines | round trip: definitions written and read; replacement in turn equals simultaneous filling of a template |
| C165 | Magic | pairing of values, check of lengths | invariant over the vectors |
| C166 | Csd | filter, sort, first line per key, sort, on records | membership and order of sorted lists; induction over the lines |
| C167 | Csd | pool and queue as a transition system with all intermediate states | invariant over all prefixes of all runs |
| C168 | Csd | as C167 | invariant; skipped scenes never change, by induction over the later runs |
| C169 | Topo | Horn gradient, arctan, atan2 as argument of a complex number, compass, conversion to ushort | trigonometry; case distinction of the quadrants |
| C170 | Topo | illumination from the stored angles, flags | Lipschitz bounds of sine and cosine; cos 55 and cos 80 by the triple angle |
| C171 | Topo | minimum, maximum, step, class | floor bounds, folds by induction |
| C172 | Topo | factor, C-factor, smoothing | field arithmetic; bounds of means |
| C173 | Topo | passes over the grid as functions | case distinction over the passes |
| C174 | Topo | four sweeps | induction along the sweeps, inductive specification of connection |
| C175 | Radtran | exponentials, weighted means over wavelengths | monotonicity of exp and powers, induction over wavelengths |
| C176 | Radtran | inversion, forward model as specification | field arithmetic with the bounds of C175 |
| C177 | Radtran | phase functions, path reflectance | fundamental theorem of calculus with explicit antiderivatives |
| C178 | Radtran | weights | monotonicity of exp |
| C179 | Radtran | kernels, factor for all bands | trigonometry, Jordan's inequality, fold invariant |
| C180 | Radtran | reflection with quotients by zero as distinct outcome | trigonometric identities under Snell's law |
| C181 | Radtran | ozone amount | case distinction, bounds of sine |
| C182 | Radtran | loops over cells | induction over the columns |
| C183 | Meta | reader of the metadata text, line by line | the text of a list of lines is read back as that list; induction over lines; tables of tags checked by the kernel |
| C184 | Meta | check of the calibration | invariants of C183; the violation for every accepted file |
| C185 | Meta | tier logic | last line with an influence on the tier |
| C186 | Meta | fields of the image | last line with an influence on the field |
| C187 | Meta | angle grids with reads outside as distinct outcome | list arithmetic |
| C188 | Meta | bounding box, alignment loops | fold invariants, induction over loop rounds, modular arithmetic |
| C189 | Meta | words of the line, out-of-range write as distinct outcome | tokeniser lemmas |
| C190 | Merge | regression with the least-squares solver as parameter, in-place update in any order | normal equations from minimality; existence of a solver by projection |
| C191 | Merge | ImproPhe prediction over the reals, and in double arithmetic with any rounding to nearest | weighted means; chain of roundings |
| C192 | Merge | block reduction, candidates, weights | induction over blocks; weighted means |
| C193 | Texture | erosion and dilation as minimum and maximum | adjunction of erosion and dilation, induction over iterations |
| C194 | Texture | rectangle that is read with the halo | locality by induction over iterations; the violation for every radius and number of iterations |
| C195 | Homo | weighted mean of regressions, truncation; rounded product, square root and quotient | positive weights from the selection loop; the cosine by exact argument on neighbouring doubles and the integer Cauchy-Schwarz inequality |
| C196 | Homo | scans for the largest weight, selection loop with removal | induction over the rounds with the invariant that the current largest weight is right; violation for cluster 9 and the global cluster |
| C197 | Homo | loop over images, search for domains, writing of bands | case analysis; induction over the images |
| C198 | Udf | copying into flat arrays; numpy in C order, R in column-major order | index arithmetic on nested ranges |
| C199 | Udf | wrappers around the user function, copying back; user code is a parameter | induction over pixels |
| C200 | Udf | the same | induction over pixels; violations for every mask |
| C201 | Udf | the same; a null pointer or an access behind the end is undefined behaviour | case analysis; induction over pixels |
| C202 | Tsa | number of steps and their days | arithmetic of truncated division |
| C203 | Tsa | table of products, rules for output options | case analysis over products |
| C204 | Tsa | file names, band labels | injectivity of the text composition; labels of each kind have no duplicates |
| C205 | Tsa | labels and dates of the layers | filter of a sorted list is a suffix |
| C206 | Tsa | design matrix, selection of observations; regression is a parameter | rows represent the harmonic functions |
| C207 | Tsa | rules for parameters | case analysis |
| C208 | Rules | `fmod` on exact numbers, tolerance as double | division with remainder; nearest double of 0.1 |
| C209 | Rules | radius, kernel sizes | bounds of the floor |
| C210 | Rules | ranges | case analysis |
| C211 | Rules | numbering of features, result of the check | induction over the lines |
| C212 | Rules | all other rules | case analysis over submodules |
| C213 | Rules | first word as read by fscanf | list lemmas |
| C214 | Aod | candidates, separation, labels from Ccl | connected paths do not cross separators |
| C215 | Aod | both passes over the pixels | permutation of lists of pixels |
| C216 | Aod | array of estimates per thread, scan over AOD grid | induction over the targets; closed form of clamping |
| C217 | Aod | selection of the best fit | invariant of the fold |
| C218 | Aod | linear fit on reals | decomposition of the sum of squares |
| C219 | Aod | weighted mean, samples, 3 by 3 filter; interpolation is a parameter | bounds of weighted means |
| C220 | Aod | scaling height; optimization is a parameter | folds for minimum and maximum |
| C221 | Aod | reader of the file of sites | induction over the lines |
| C232 | Skel | skeleton writer, registries of all programs, reading | clean keys and positions by kernel computation over the finite tables, then C34 for arbitrary values |
| C233 | Skel | default values, parameter check | kernel computation over the tables without rounding, lifted to all monotone roundings; violated for BASE_LSP |
| C234 | Skel | parsePrm | induction over the lines; violated for equal signs and comments |
| C235 | Train | force-train.cpp main until the training | induction over drawn samples; error analysis of the percentage; violated for 100 % of 671089 samples and if there is no training sample |
| C236 | Train | class_priors, check of FEATURE_WEIGHTS | histogram (C37), error analysis; violated: weights of all instead of training samples, negative weights |
| C237 | Train | decision logic of train_svm, train_rf | case analysis |
| C238 | Train | predict_classification, predict_regression | induction; C51 for the line |
| C239 | Share | write_brick as interleaved single steps under locks | invariant: every schedule is equivalent to the serial execution of the completed sections |
| C240 | Share | provenance part of write_brick | the same invariant and induction over the completed sections |
| C241 | Share | as C240 | violated: constructed schedules; partial: all recorded when the processes end |
| C242 | Share | as C239, infinite schedules | ranking function (steps left), ownership of locks; violated by locks of stopped processes |
| C243 | Share | lock_timeout | monotonicity and bounds of the exponential function |
| C244 | Ps | main of force-l2ps with arbitrary return codes of the steps | induction over the datacubes and steps: decomposition at the first step that does not succeed |
| C245 | Ps | checks of parse_param_lower, parse_proj | case distinction; induction over the words |
| C246 | Gas | water_vapor with an arbitrary search | blocks partition the image; induction over the estimates |
| C247 | Gas | as C246, arbitrary distribution of rows | violated if the result of the search depends on its start value; partial: permutation invariance |
| C248 | Gas | index computations with exact rounding | distance of floats from integers, rounding of numbers close to integers |
| C249 | Gas | gas_transmittance | induction over the blocks |
| C250 | Gas | fun_wvp | algebra |
| C251 | Copy | `copy_brick` with all setters in the order of the code | equality of everything but the bands; bands by induction over the copy loop |
| C252 | Copy | `reallocate_brick` | bands before and after by position |
| C253 | Cprob | `quantile` | the piece in which the probability falls; monotone from piece to piece |
| C254 | Cprob | `land_probability` with its roundings | monotonicity of rounding; share of the quantile |
| C255 | Cprob | `water_probability` with its roundings | as C254 |
| C256 | Cprob | `cloud_probability` | case distinction, majority filling from C15; shift of all quantiles |
| C257 | Pac | `compile_target_adaptive` | the recurrence gives the least-squares line (C36, C51); violation: variables carried over between layers |
| C258 | Avec | `polar_coords`, `polar_vector`, start of the year (real numbers) | sums of cosines as the projection of the averaged vector |
| C259 | Avec | `ce_from_polar_vector`, averaged vectors of windows | cone spanned by steps within half a year; violation: empty window |
| C260 | Avec | `identify_variable_seasons` | case distinction of the angle; marks of different seasons do not overlap; violation: empty season |
| C261 | Input | `read_mask`, `list_mask`, decisions of the task functions | case distinction; pixels via C09; violation: the value is cut to 8 bits |
| C262 | Input | `read_features`, `screen_qai` | lists of optional values: all or nothing; pixels via C09 |
| C263 | Input | `read_confield`, guards of the modules | case distinction |
| C264 | Naming | names of products and bands, `write_brick` | file names are injective in product and band: fixed lengths, first and last separators; violations: class probabilities, names equal up to the first dot, statistics requested twice |
| C265 | Naming | directory names | case distinction over modules; violation: Level 2 ImproPhe |
| C266 | Naming | `write_brick` | number of files; violation: composites |
| C267 | Watch | stopwatch of the three stages, loop of main, final report | fold over loop bodies; measurements of a task depend on its own events only, for every interleaving; sorted clock readings bound the sum of the longest stages |
| C268 | Watch | percent_done, eta | monotonicity of rounding to nearest; exactness for integers; units computed from the Pipeline model |
| C269 | Watch | error handling of reading and computing a unit | decision logic, exact condition |
| C270 | Watch | output_higher_level, exit code | list filter equality where locks and writes succeed; two families of counterexamples |
| C271 | Match | mask, window test, corner test, search for the limit | specification of a corner; selection by induction over the pixels; search by induction over the halvings |
| C272 | Match | nine positions, growing window, acceptance, carried position | invariant of the loop over the points; counterexample family for the carried position |
| C273 | Match | depth first matching over the layers | invariant: distance from the border survives scaling and the limited moves; sum of the moves over three layers |
| C274 | Match | dense matching of a grid point | decision logic with arbitrary fit and prediction |
| C275 | Match | loop of LSMatching_SAM | strictly increasing bounded integers |
| C276 | Modis | translation of the state word | fields of the state word as quotient and remainder; get/set laws of the quality bits (C07) |
| C277 | Modis | test of the first band | decision logic; counterexample family for other bands |
| C278 | Modis | loop over the bands | induction over the bands |
| C279 | Modis | parsing of the name, date, output path | digits read back; dates via C01; injectivity of the path |
| C280 | Csv | write_table, cutting of a file into items, read_table, file of force-hist | printed digits read back; lines and items recovered by induction; C48 and C120 |
| C281 | Dem | smooth_topography | window list without duplicates equals the set of known pixels of the specification; fold equals the finite sum |
| C282 | Dem | average_elevation_cell with convert_brick_p2ji | as C281; floor arithmetic for cell starts; gaps for 30 m by congruence of the fold |
| C283 | Dem | aerosol flag in atmo_elevdep | get/set laws of C07 |
| C284 | Args | getopt (libc), parse_args of force-hist | induction over the written command line; fold over the options equals the last values |
| C285 | Args | parse_args of force-stratified-sample | as C284; invariant over all option sequences for the violation |
| C286 | Args | parse_args of force-tile-finder | as C284; invariant for the positive resolution |
| C287 | Args, Tile | pixel in main of force-tile-finder | C16 and floor arithmetic |
| C288 | Args | parse_args of force-cube-init | as C284; out of range index as undefined outcome |
| C289 | Tscore | tscore and its approximations over the reals | partial correctness of the loop; exactness of the first guess by arctan and square root identities |
| C290 | Tscore | slope_significant | strict monotonicity of the distribution functions |
| C291 | Plog | log_parameter with its buffer | induction over parameters; undefined outcome for the unterminated array |
| C292 | Poi | Conv2same_FLT_T with its five passes over an array, GetGaussian over the reals | bounds of all indices; the passes as a fold; sums over the window |
| C293 | Poi | points_of_interest as a whole | composition of total image functions; monotonicity in the threshold |
| C294 | Find | findfile_pattern, findfile_starts, countfile over a list of names | first match of a list; lengths |
| C295 | Find | parse_metadata_mission | the searches as existence statements |
| C296 | Find | dive into .SAFE, tile from the name, band images, DEM name | position of the only dot in names and patterns; lengths |
| C297 | Label | python_label_dimensions with the memory of the arrays, rstats_label_dimensions | induction over the texts with the position of the pointer |
| C298 | Label | the loops of init_pyp and init_rsp with the variable that is kept between bands; the order of release and reads | induction over the names; C05 for the dates |
| C299 | Pyr | build_pyramids over the layer of C229 | induction over the layers; the finest layer is a function of the clear pixels |
| C300 | Pyr | count of land, step, cumulative_scale and the ranges of depth-first and dense matching | floor of rational and real expressions; product of the scales |
| C301 | Fetch | download_file with its callback, the loop around it, runs of the program with arbitrary servers | induction over attempts and runs |
| C302 | Fetch | the loop around download_file | strong induction over the attempts that are left |
| C303 | Fetch | names, look-up in the listing, granule with the local files as a function of the name | case analysis; induction over the lines |
| C304 | Fetch | get_laads_key with environment, login and files as parameters | case analysis; first string of fgets |
| C305 | Mdcp | main of force-mdcp with the images as values | induction over the loop over the bands |
| C306 | Equi | the choice of the grid and of the continents | the finite table, and a proof for every other text |
| C307 | Equi | the content of the dictionary | the largest row by induction; names are split at their first separator |
| C308 | Equi | writing the dictionary with files as values, crash points, the start of a continent | case analysis; for every crash point |
| C309 | Equi | flush_level2, the loop over continents, write_brick for whole images | induction over products and over histories |
| C310 | Metric | tags, flags and the tables of products of texture and landscape metrics | induction over the list of metrics |
| C311 | Side | tables of outages, start of Aqua, number of transfers (Fetch) | case analysis of the tables for all dates; invariant of the loop of transfers |
| C312 | Side | scaling and checks of the endmember table, with NaN and infinities | induction over rows and fields; NaN as counterexample |
| C313 | Side | packing of the bands into the array and reading them back in the minimizer | induction over the bands: contents of the array |
| C314 | Grid | number of cells and conversion of pixels in rounded double arithmetic (Brick) | exactness of floor and ceiling of rounded quotients of integers |
| C315 | Patch | pointer walk over both patches, rounding of the mean | induction over the pixels of a row and over the rows |
| C316 | Elev | counting and gathering of targets, conditions and limits of the scale height; GSL search as parameter | induction over the targets: number of writes equals the counter |
| C317 | Elev | sums of the minimizer over real numbers | decomposition of the sum of squares |
| C318 | Own | allocation and release on a heap of numbered blocks | the obtained blocks are new and distinct; induction over rows and layers; violated for contiguous arrays without rows and for tables with names freed twice |
| C229-C231 | Coreg | pyramids, similarity, base image | window sums; Cauchy-Schwarz; induction over the years |
| C225-C228 | Coreg | linear equations, fits, outliers, attempts | elimination keeps the set of solutions; normal equations and gap of the squared error; loop invariant of the in-place removal; case analysis |
| C222-C224 | Coreg | register_band, register_quality, reconciliation of the off flag, acceptance | refinement to bilinear interpolation; counterexamples for negative values, borders, too few tie points |

## 3. Trusted base

### 3.1 What has to be trusted

* Lean 4.33.0's kernel and the three standard axioms `propext`, `Classical.choice`, `Quot.sound`. No axioms are added,
  there is no `sorry`/`admit`, `native_decide` or `bv_decide`; `decide +kernel` is evaluated by the kernel.
* Mathlib as installed (it is checked by the same kernel).
* That the definitions in `*/Model.lean` transcribe the code in `/repo`. Each definition cites the lines it models and
  states what it simplifies.
* That the specifications in `*/Spec.lean` and the theorem statements say what the English properties say.

### 3.2 What is modelled and what is not

Modelled (file in `/repo` → module in `lean/Verif`):

| code | module | functions |
|------|--------|-----------|
| `cross-level/date-cl.c` | `Date` | conversions between date, day of the year, week, continuous date; setters, `date_from_string`, `compare`, differences |
| `cross-level/quality-cl.c`, `higher-level/quality-hl.c` | `Qai`, `Noise` | bit fields, merging, `use_this_pixel`, `screen_qai`, `screen_noise` |
| `cross-level/queue-cl.c` | `Queue` | all functions |
| `cross-level/imagefuns-cl.c` | `Recon`, `Dist`, `Buffer` | greyscale reconstruction, distance transform, buffering, majority filling |
| `cross-level/tile-cl.c`, `cube-cl.c` | `Tile`, `Cube` | tile search and alignment, allow-list, datacube definition file, locking of the definition file |
| `higher-level/tasks-hl.c`, `force-higher-level.c` | `Pipeline` | progress counters, processing units, pipeline of reading, computing and writing |
| `cross-level/brick_base-cl.c`, `brick_io-cl.cpp` | `Brick`, `Sample` | conversion between bricks, cropping, chunk output, merging with an existing product, coordinates |
| `cross-level/string-cl.c`, `alloc-cl.c`, `utils-cl.c` | `Str`, `Libc` | string copies, concatenation, replacement, number parsing, reallocation |
| `cross-level/param-cl.c`, `higher-level/param-hl.c` | `Param`, `Season` | reading of parameter files, range checks, date windows |
| `cross-level/stats-cl.c` | `Stats` | recurrences, moments, histogram, mode, number of unique values, quantiles (via sorted data) |
| `higher-level/interpolate-hl.c` | `Interp` | none, linear, moving average, radial basis functions |
| `higher-level/fold-hl.c`, `stm-hl.c` | `Fold` | folding and spectral temporal metrics |
| `cross-level/table-cl.c` | `Table` | reading of tables, statistics of columns |
| `higher-level/bap-hl.c` | `Bap` | targets, scores, selection of the best observation |
| `higher-level/cso-hl.c` | `Cso` | windows, assignment of observations, statistics |
| `higher-level/sample-hl.c` | `Sample` | extraction of samples |
| `main/aux-level/force-stratified-sample.c` | `Strat` | pre-selection and thinning |
| `bash/force-level2.sh` | `L2queue` | queue file, parallel updates |
| Trend | trend-hl.c `trend`, `cat`; standardize-hl.c `standardize_timeseries` (one pixel) | exact real arithmetic; `tscore` (critical value) is a parameter; dates enter as the year/quarter/month/week/day of the layer |
| Polar | `polar_ts` (gap filling, dates, events, integrals, rates), `polar_coords` (dates), `identify_regular_seasons`, `accumulate_seasons` of polar-hl.c, one pixel | exact rational arithmetic for values, shares, integrals; the roundings of the conversion between days and radians are kept; start of the phenological year is a parameter; averaged vectors, mean/variance of green values and the adaptive start are not modelled |
| Sensor | sensor-hl.c (all), index-parse-hl.c (all but memory release), dispatch of index-compute-hl.c, `find_domain` (brick_base-cl.c), band selection of `read_chunk` (read-ard-hl.c), misc/runtime-data/indices.json | JSON parsing is external; texts have no encoding; error messages not modelled |
| Index | index-compute-hl.c without `index_unmixed` | one pixel; no fused or extended precision operations; `exp` and `sqrt` are parameters with error bounds |
| Unmix | `index_unmixed` (index-compute-hl.c) | one pixel; GSL linear algebra is a parameter; exact arithmetic except for C78 |
| Halo | `read_chunk` (window), `add_chunks` (read-ard-hl.c) | distances in whole pixels; no resampling; GDAL reading is a function of row and column that fails outside of the image |
| Ccl | `connectedcomponents_`, `ccl_tracer`, `ccl_contourtrace`, `binary_to_objects` (imagefuns-cl.c) | rows and columns instead of one index; the loop of the tracing has fuel, shown to suffice |
| Lsm | `landscape_metrics` (lsm-hl.c) for one feature | exact arithmetic, areas and edge lengths as counts (one theorem treats single precision); exp, log and sqrt are parameters; threads are lists of pixels |
| Ml | `machine_learning` (ml-hl.c) for one pixel | the models (OpenCV) are parameters; exact means and variances; probabilities rounded to double; sqrt is a parameter |
| Lib | `library_completeness` (lib-hl.c) for one pixel, rescaling in `read_libraries` | exact arithmetic; sqrt is a parameter; numbers that are not finite are `none` |
| Ovv | loop of `level3` (level3-hl.c), `bap_overview` (bap-hl.c) | compositing of a pixel is a parameter (module Bap); exact arithmetic |
| Imp | `average_season`, `improphe`, `rescale_weight`, `focal_sd`, `standardize_float` (improphe-hl.c), `level2_improphe` (l2-improphe-hl.c), `confield_improphe` (cf-improphe-hl.c) | exact arithmetic except for the rounding of the prediction; `pca`, `exp` and `sqrt` are parameters; bricks as functions of row and column |
| Pca | `pca` (pca-cl.c) | exact arithmetic; the eigenvalue solver is a parameter that returns eigenvalues and a matrix of eigenvectors in columns |
| L2tile | `tile_level2`, `start_datacube` (cube-ll.c) | exact arithmetic, rounding of the offset is treated separately; `warp_any_to_any` is a parameter; `write_brick` is in Brick |
| L2tile (MultiModel) | `fmod` checks of `start_datacube`, `update_datacube_res`, `chunk_layout`; `start_equi7cube`, `start_glance7cube`: selection of continents; loop of `force-l2ps` | extents and reprojected datasets are given; directories, projection files and the tile dictionary are left out |
| Sun | sun-cl.c: `sunJC`, `doy2dsun`, `sunpos`; sunview-ll.c: `localtime2gmt`, `standard_sunzenith` | real arithmetic for the trigonometry; the series for declination and equation of time are parameters; `set_date_doy` is in Date |
| View | `sunview-ll.c`: `viewgeo`, `view_angle`, `sun_target_view` (location of cells, low sun flag) | real numbers for distance and angles; `float` roundings for cells of Sentinel-2; ACIX2 code left out; `warp_any_to_geo` is a parameter |
| L1 | `read-ll.c`: `bounds_level1`, `impulse_noise_level1`, `convert_level1` | reading left out; real numbers for Landsat, `float` roundings for Sentinel-2 |
| Tools | `force-hist.c`, `force-stack.c`, `force-tabulate-grid.c`, `force-tile-finder.c`, `force-qai-inflate.c`: `main` after parsing | files and coordinate transformation are inputs; exact coordinates |
| Cloud | `cloud-ll.c`: `potential_cloud`, decision of `cloud_probability`, `cloud_parallax` (cores, growing, transfer, index arithmetic), `shadow_probability` (merging), `shadow_matching`, `finalize_cloud`, `detect_clouds` (decisions), `cloud_distance` | `float` as rational numbers; quantiles, probabilities, cloud displacement index, object heights and shadow positions are parameters |
| Ard | `read-ard-hl.c`: `product_ard`, `sensor_ard`, `list_ard`, `reduce_psf`, selection, companions and errors of `read_ard`, `read_mask`, quality in `read_features`; `imagefuns-cl.c`: `find_sigma`, `gauss_kernel` | `float` and `double` as real numbers; results of reading files and directories are parameters; `read_chunk` (GDAL) not modelled |
| Gdalopt | `gdalopt-cl.c`: `default_gdaloptions`, `parse_gdaloptions`, `copy_gdaloptions`; options in `write_brick`; option arrays of `vector-cl.c` | GDAL itself only as a reader of the arrays; file as text; lines of tag = value words |
| Wvp | `modwvp-ll.c` (days, granules, averaging, tables, climatology), `force-lut-modis.c`, `water_vapor_from_lut` | downloads and HDF reading are inputs; coordinates and distances without rounding in the geometry; the distance of `water_vapor_from_lut` in reals |
| Cite | `cite-cl.c`: `cite_me`, `cite_crc8`, `cite_push` | texts of the references not modelled; lock obtained and file opened |
| Prod | `fequal`, `is_nodata`; `atmo-ll.c`: interpolation of coarse parameters, background reflectance, products BOA, QAI, HOT, AOD, WVP, VZN, OVV, DST | the radiative transfer and the water vapour estimate of a pixel are parameters; exact arithmetic except in `fequal` |
| Mix | `force-synthmix.py`: drawing of fractions, mixing, labels, class likelihoods | random numbers are parameters; the profile is computed without rounding; features are one band |
| Assess | `force-map-accuracy.r`, `force-sample-size.r`: all computations | exact arithmetic; tables with as many rows as classes; report formatting not modelled |
| Magic | `force-magic-parameters.sh` | text as lists of characters; glob characters, quotes and sequence expressions in values not modelled |
| Csd | `force-level1-csd.sh` selection and download for Sentinel-2 | catalogue lines as records; regular expressions as comparison of fields; files of a scene copied one after the other; Landsat disabled in this version |
| Topo | `topo-ll.c` except warping, smoothing of the DEM and sampling for the C-factor; topographic factor of `atmo-ll.c` | real numbers instead of float; `fequal` as equality; regression of the C-factor as parameter |
| Radtran | `radtran-ll.c`, `brdf-ll.c`, inversion and cell loops of `atmo-ll.c`, `ozone_amount` | real numbers instead of float; division by zero only distinct in the Fresnel reflection |
| Meta | `meta-ll.c`: Landsat reader with its checks; angle grids, subset and offsets of Sentinel-2 | number conversion of the metadata is a parameter; angles are rational numbers; the rest of the Sentinel-2 reader is not modelled |
| Merge | `resmerge-ll.c`: the three methods for one target band | GSL's regression is a parameter that minimises the squared residuals; real numbers except in `impropheRounded`; allocation and reading of bands not modelled |
| Texture | `texture-hl.c` with the halo of `param-hl.c` | OpenCV modelled by its documentation; structuring element is a parameter; files not modelled |
| Homo | spec-adjust-hl.c: `spectral_predict`, `spectral_adjust` | numbers are real except in Cosine; tables of centres and coefficients are parameters; results outside of 16 bit are kept; `spec_adjust` switched off is not modelled |
| Udf | py-udf-hl.c `python_udf` and the Python wrappers, r-udf-hl.c `rstats_udf` and the R wrappers | user code is a function with a result or an error; R's `apply` and numpy's memory order by their documentation; labels (dates, sensors, band names), conversion to 16 bit, and parallel execution in pools, which keeps the order, are not modelled |
| Tsa | tsa-hl.c product tables, number of steps, labels, file names; param-hl.c rules for time series; interpolate-hl.c harmonic interpolation | memory of products and the bandlist not modelled; sine and cosine exact; robust regression is a parameter; per-product computation is in Stats, Interp, Fold, Trend, Polar, Cso |
| Rules | param-hl.c `parse_param_higher` (rules after reading), `parse_ftr` | products and quotients of lengths exact; weights, temporal window and time series rules are in Bap, Season, Tsa |
| Aod | aod-ll.c except the libraries of spectra and the simplex search | radiative transfer, simplex search, Brent search and inverse distance weighting are parameters; reals for float; distances of sites compared exactly (the code rounds them to float) |
| Coreg | coreg-ll.c: attempts, transform_from_df/dm, choose_transform, register_band, register_quality, coregister (base image, reconciliation), build_pyramidlayer; coregfuns-ll.c: INVSQR1, RMSE1, Fit*Transform, GetTransformedCoords, Conv2same, SAM, corr2; dir-cl.c: findfile_starts | exact arithmetic; patch matching (LSMatching_SAM, points of interest, dense matching grid) is a parameter; Gaussian weights are a parameter; warping of the base image not modelled |
| Skel | force-parameter.c, param-aux.c (entries), register_* of param-ll.c, param-hl.c, param-train-aux.c, enum-cl.c (tables), parsePrm of force-synthmix.py | texts of comments are arbitrary; `strip` for ASCII only |
| Train | force-train.cpp (main), train-aux.cpp, parse_param_train (checks) | OpenCV (training, prediction) is not modelled; log file not modelled; statistics in exact arithmetic |
| Share | brick_io-cl.cpp write_brick 222-507 with several processes, lock-cl.c | CPLLockFile is atomic; creation of an image has two steps (incomplete, complete); text is written at once when the file is closed; chunk mode left out |
| Ps | force-l2ps.c 150-321, param-ll.c 112-124, 242-273 | steps have return codes only; check_parameter is modelled in Param |
| Gas | gas-ll.c 64-88 (range of the table), 119-187, 205-455, 467-555 | simplex search is an arbitrary function; sum of the estimates exact; image sizes are multiples of 6; objective in rational arithmetic |
| Copy | `allocate_brick`, `copy_brick`, `copy_brick_band`, `reallocate_brick`, the setters of size and chunk, `find_domain` (brick_base-cl.c) | texts are lists of characters (C29, C31); GDAL options, dates and values are parameters; memory does not run out |
| Cprob | `quantile` (stats-cl.c), `land_probability`, `water_probability`, `cloud_probability` (cloud-ll.c 427-747) | GSL's quantile as documented; double arithmetic exact, float rounded; the two threads of land and water are independent and both run |
| Pac | `compile_target_adaptive` (bap-hl.c) for one pixel | regression exact; dates exact as floats; the RMSE is compared as a square; scoring functions in Bap |
| Avec | `polar_coords`, `polar_vector`, `ce_from_polar_vector`, `identify_variable_seasons`, averaged vectors of `polar_ts` (polar-hl.c) | real numbers; `atan2` as argument of a complex number; the number of steps of a shift is an exact quotient |
| Input | `list_mask`, `read_mask`, `read_features`, `read_confield` (read-ard-hl.c), decisions of `read_higher_level`, `compute_higher_level` (tasks-hl.c) and guards of `level3`, `confield_improphe`, `level2_improphe` | the content of a file is what `read_chunk` and `add_chunks` give; the list of ARD is a parameter; noise filter and spectral adjustment left out |
| Naming | names given by `compile_*` of the composite, clear-sky, machine learning, texture, landscape, library, ImproPhe and user code modules, and the files of `write_brick` | names fit into their buffers; all bands are saved; names of input files have no directory; a percentile is printed from the exact number |
| Watch | progress-hl.c measure_progress, bound_time, add_time, reset_time, progress, eta, percent_done, print_progress_runtime; tasks-hl.c failure handling; loop of force-higher-level.c | layout of the printed text not modelled; outcomes of reading, screening, adjusting, modules, locking and writing are parameters; cropping before writing left out |
| Match | coreg-ll.c points_of_interest, mask_and_base, initial_matching, depth_first_matching, dense_matching; coregfuns-ll.c LSMatching_SAM, resampling (patch test), imsub, FindTargetValueInWindow, ApplyMask | rational positions; filters, correlation, normal equations, similarity and predicted positions are parameters; the retry with a lower threshold is not modelled |
| Modis | force-import-modis.c get_modqa, compile_qai (one pixel), name parsing in main, path in set_meta | reading of the HDF layers, resampling of the state layer and projection are not modelled; time of day zero (not set in the code) |
| Csv | table-cl.c write_table; line and item splitting of read_table; force-hist.c main (table and file) | rational numbers; decimal printing exact; file operations do not fail |
| Dem | topo-ll.c smooth_topography, average_elevation_cell; atmo-ll.c aerosol flag (915-925) | rational numbers; parallel loops sequential (one writer per pixel) |
| Args | parse_args of force-hist, force-stratified-sample, force-tile-finder, force-cube-init; pixel of force-tile-finder | getopt and atof of libc are modelled; words without NUL; texts of usage and errors not modelled |
| Tscore | tscore, slope_significant and their helpers | real numbers instead of float; constants are the decimal numbers |
| Plog | log_parameter | `%d`, `%f`, `%s` of libc as in Libc; unknown types not modelled; the memory behind an array is undefined |
| Poi | points_of_interest, mask_and_base, Conv2same_FLT_T, CalcGradient2D, GetGaussian and the other helpers | exact arithmetic in an ordered field; minimum and maximum strength are not used by the code and not modelled |
| Find | findfile_pattern, findfile_starts, countfile, parse_metadata_mission, the .SAFE part of parse_param_lower, image names and tile of parse_metadata_sentinel2, append_reference_system_to_dem | texts without NUL; a directory is the list of names `readdir` gives; messages are not modelled |
| Label | python_label_dimensions, rstats_label_dimensions, the loops over the names in init_pyp and init_rsp | the interpreters are not modelled: a returned list is a list of texts without NUL; that a released object is freed at once is an assumption about CPython |
| Pyr | build_pyramids, count of land, dense matching step, cumulative_scale, ranges of the windows | exact arithmetic instead of float and double; the Gaussian filter is a parameter |
| Fetch | download_file, curl_write_download, the loops around it, names and look-up of a granule, get_laads_key | libcurl and the server are parameters; local files can be created; URLs are not built; GDAL is a predicate on the content |
| Mdcp | main of force-mdcp | GDAL stores what it is given; errors of GDALSetMetadata, which the program does not check, are not modelled |
| Equi | start_multicube, the choice of continents, write_equi7dict, the end of start_equi7cube, cube_level2 and flush_level2 without tiling, and write_brick for whole images | tile numbers are exact in double; an image is read and written as a whole or not at all; locks, provenance and exploded bands are not modelled here |
| Metric | parse_txt, parse_lsm, the tables of compile_txt and compile_lsm | the images are values; how they are computed is in Texture and Lsm |
| Side | failure_terra, failure_aqua, the requests for lists of granules in create_wvp_lut, read_endmember, aod_polynomial_fit (without the simplex search), aod_polynomial_minimizer | division and sums not rounded; square root left out; the number of bands as float is exact |
| Grid | init_atc_xy: dimensions of the grid | copies of the bricks and their names not modelled |
| Patch | GetMeanDiff and its call in LSMatching_SAM | sum and mean (float in the code) not rounded |
| Elev | aod_elev_dependency (scale height), aod_elevation_minimizer, counter of aod_from_target | real arithmetic; GSL search is a parameter; factors derived from the scale height are in Radtran |
| Own | alloc, alloc_2D, alloc_2DC, alloc_3D and their free functions, allocate_table, free_table | blocks are numbers; contents and running out of memory not modelled; calloc of zero bytes returns a block (glibc) |

Not modelled: GDAL, GSL, OpenCV, curl and the operating system (they are parameters, or only their documented effect is
modelled); floating point rounding except in `Float`/`FloatErr` and the modules that use them (statistics, scores and
coordinates are exact real or rational numbers); memory allocation failures; the numerical content of the atmospheric
and topographic correction, cloud detection thresholds, machine learning, texture and spline code; R and Python parts;
the documentation.

### 3.3 Axioms of each theorem

Obtained with `#print axioms` for every theorem named in `MANIFEST.json`. There are no other axioms.

**no axioms** (6 theorems): `c06_seconds_violated`, `c09_every_name_has_condition`, `c14_no_radius`, `c20_replaced_violated`, `c38_none`, `c213_distinct`.

**`propext`** (24 theorems): `c03_leap_day_collision`, `c04_date_step_violated`, `c11_limits`, `c18_no_list`, `c20_mutual_exclusion_partial`, `c20_existing_kept_partial`, `c20_complete_text_partial`, `c20_same_definition_partial`, `c20_lock_leak_violated`, `c29_copy_defined`, `c32_zero`, `c44_plus_violated`, `c71_documented`, `c77_masked`, `c82_dates`, `c82_masked_violated`, `c126_background`, `c139_arrays_partial`, `c140_format`, `c193_excluded`, `c193_mask_violated`, `c203_table`, `c207_refused`, `c267_times`.

**`Quot.sound`, `propext`** (83 theorems): `c05_no_word_ub_violated`, `c05_rejected_partial`, `c07_unmasked_value_spills`, `c08_illumination_violated`, `c10_restored`, `c18_five_characters`, `c24_exit_code`, `c24_stream_exit_partial`, `c24_sequential_violated`, `c25_other_types_violated`, `c27_one_valid`, `c27_update_history`, `c28_early_failure_partial`, `c28_lock_leak_violated`, `c29_concat2`, `c29_concat3`, `c30_long_pattern_violated`, `c31_empty_first`, `c33_no_name`, `c37_overflow_violated`, `c43_boundaries`, `c44_suffix_violated`, `c44_images`, `c44_give_up_violated`, `c48_regular`, `c48_minmax_partial`, `c48_minmax_violated`, `c50_periods`, `c50_counts`, `c71_read`, `c77_band`, `c95_unmasked_partial`, `c95_masked_violated`, `c116_temperature`, `c116_accepted_partial`, `c116_accepted_violated`, `c126_threads_violated`, `c127_mask`, `c164_combinations`, `c167_queue`, `c168_all_partial`, `c168_first`, `c168_queue_violated`, `c168_files_violated`, `c174_sea`, `c174_found_partial`, `c174_coast_violated`, `c182_once`, `c182_square_partial`, `c182_location_violated`, `c188_empty`, `c193_nodata_violated`, `c199_python_chunk`, `c200_r_chunk_violated`, `c201_short_aux`, `c202_none`, `c202_defined`, `c205_nrt`, `c213_long_violated`, `c223_off_partial`, `c223_rest`, `c231_base`, `c231_none`, `c231_buffer`, `c237_samples`, `c244_complete`, `c244_failure`, `c245_projection`, `c245_cut`, `c251_domain`, `c252_fewer`, `c264_features_violated`, `c267_in_turn`, `c270_written_partial`, `c270_lock_violated`, `c270_no_lock`, `c296_tile_old`, `c301_complete_partial`, `c302_kept`, `c302_retry`, `c302_gone`, `c302_never`, `c309_long`.

**`Classical.choice`, `Quot.sound`, `propext`** (1144 theorems): `c01_doy_roundtrip`, `c01_md_roundtrip`, `c01_week_quarter`, `c02_date_ce_date`, `c02_ce_date_ce`, `c02_double_floor_exact`, `c03_ce_chronological`, `c03_ce_injective`, `c03_date_order`, `c04_setters_consistent`, `c04_from_any_record`, `c04_date_step_partial`, `c05_valid_dates_accepted`, `c05_accepted_in_range`, `c05_dummy_date_violated`, `c05_invalid_day_accepted_violated`, `c05_non_number_accepted_violated`, `c06_seconds_partial`, `c06_seconds_year_unit`, `c07_get_documented_bits`, `c07_get_set`, `c07_set_comm`, `c07_write_history`, `c08_most_restrictive_partial`, `c08_semilattice`, `c09_screening`, `c09_monotone`, `c09_schedule_independent`, `c10_terminates`, `c10_history`, `c10_round`, `c10_removed`, `c11_bounded_fifo`, `c11_in_bounds`, `c12_fill_level`, `c12_in_bounds`, `c12_terminates`, `c13_distance`, `c13_empty`, `c13_sqrt`, `c14_schedule`, `c14_extent`, `c14_contains_partial`, `c14_border_violated`, `c15_fills_partial`, `c15_reason_partial`, `c15_order_violated`, `c16_tile_contains_point`, `c16_interior`, `c16_unique_tile`, `c16_edge_convention`, `c16_needs_positive_size`, `c17_align_partial`, `c17_off_grid_partial`, `c17_on_grid_violated`, `c18_active_tiles`, `c18_failure`, `c18_in_bounds`, `c18_readlist`, `c18_bad_list`, `c19_round_trip_partial`, `c19_projection_cut_violated`, `c19_precision_violated`, `c19_rejected_partial`, `c19_missing_tag_violated`, `c19_blank_line_violated`, `c21_terminates`, `c21_exactly_once`, `c21_in_bounds`, `c21_ascending`, `c22_disjoint`, `c22_stream_eq_sequential`, `c22_output`, `c23_unit_to_chunk_partial`, `c23_bijective_partial`, `c23_float_violated`, `c25_crop_partial`, `c26_chunks_assembled_partial`, `c26_complete_tile_partial`, `c26_stale_violated`, `c26_invalid_chunk`, `c27_merge_average`, `c27_merge_valid_partial`, `c27_merge_lost_violated`, `c27_qai_merge`, `c28_no_lock_left_partial`, `c29_copy`, `c29_fill_string`, `c29_overwrite`, `c30_replace_partial`, `c30_no_overflow`, `c31_fill`, `c31_history`, `c31_contains`, `c32_realloc`, `c32_realloc2D`, `c32_realloc3D`, `c32_realloc2DC_partial`, `c32_contiguous_violated`, `c33_basename`, `c33_extension`, `c33_extension2`, `c33_dirname_partial`, `c33_dirname_cwd`, `c33_dirname_violated`, `c34_parse`, `c34_readable`, `c34_irrelevant`, `c34_values`, `c34_prescreen`, `c35_check_partial`, `c35_nan_violated`, `c35_enum`, `c36_variance`, `c36_covariance`, `c36_covariance_full`, `c36_skewness_sums`, `c36_kurtosis_sums`, `c36_order`, `c36_first`, `c36_estimates`, `c36_kurtosis`, `c36_skewness`, `c37_mode_partial`, `c37_unique_partial`, `c37_histogram_partial`, `c38_neighbours`, `c38_between_partial`, `c38_long_gap_violated`, `c39_moving`, `c40_rbf_partial`, `c40_range`, `c40_cutoff_violated`, `c41_fold_partial`, `c41_nodata`, `c41_average_partial`, `c41_average_violated`, `c41_range_violated`, `c41_std_single_violated`, `c41_constant_violated`, `c41_periods`, `c41_one_period`, `c42_metrics_partial`, `c42_average_partial`, `c42_nodata`, `c42_order_partial`, `c42_order_violated`, `c42_duplicate_violated`, `c42_std_single_violated`, `c43_count`, `c43_partition_partial`, `c43_last_month_violated`, `c43_assign`, `c43_gaps_sum`, `c43_pixel`, `c43_std_one_violated`, `c43_std_violated`, `c43_skew_violated`, `c43_quantile_violated`, `c43_quantile_stale_violated`, `c44_serial`, `c44_status_partial`, `c45_best`, `c45_nodata`, `c45_index_violated`, `c45_pixel_partial`, `c45_water_partial`, `c45_water_violated`, `c45_nan_violated`, `c46_projected_violated`, `c46_box_columns`, `c46_geographic_violated`, `c46_once_partial`, `c46_edge_violated`, `c47_contains_exact`, `c47_conversion_partial`, `c47_same_resolution_violated`, `c48_read_partial`, `c48_header_violated`, `c48_blank_violated`, `c48_mean`, `c49_decimal_partial`, `c49_garbage`, `c49_leading_zero_violated`, `c50_days_partial`, `c50_single_day_violated`, `c50_labels`, `c50_images`, `c51_least_squares`, `c51_rsquared`, `c51_residuals`, `c52_residual_partial`, `c52_slope_violated`, `c53_independent_partial`, `c53_schedule_partial`, `c53_stale_violated`, `c54_dates`, `c54_values_partial`, `c54_monotone`, `c54_degenerate_violated`, `c55_mean_partial`, `c55_nodata_partial`, `c55_null_violated`, `c56_range`, `c56_symmetric`, `c56_mean`, `c56_pixel`, `c57_weights`, `c57_shape_partial`, `c57_shape_violated`, `c58_column`, `c58_row_partial`, `c58_row_violated`, `c58_subset_column`, `c58_subset_row_partial`, `c58_subset_row_violated`, `c59_sizes_partial`, `c59_exact_partial`, `c59_centre`, `c59_overflow_violated`, `c59_unlisted_violated`, `c59_duplicate_violated`, `c60_regression`, `c60_nodata`, `c60_constant_violated`, `c60_percent_violated`, `c60_defined_partial`, `c60_days_partial`, `c60_days_mean_violated`, `c60_days_gain_violated`, `c61_change_partial`, `c61_penalty_violated`, `c61_parts_violated`, `c61_segment_partial`, `c61_total_partial`, `c61_days_violated`, `c61_loss`, `c62_center`, `c62_normal_partial`, `c62_unchanged`, `c62_constant_violated`, `c62_nodata_violated`, `c63_values`, `c63_nodata`, `c64_dates_partial`, `c64_days_violated`, `c65_seasons_partial`, `c65_late_start_violated`, `c65_years`, `c66_events`, `c66_order`, `c66_peak_partial`, `c66_peak_violated`, `c66_empty_violated`, `c66_pixel`, `c67_integrals`, `c67_green`, `c67_rates_partial`, `c67_rates_violated`, `c67_shift_violated`, `c67_overflow_violated`, `c68_bands`, `c68_numbers`, `c68_target`, `c68_accept`, `c69_safe_partial`, `c69_adjust_violated`, `c69_lowres_violated`, `c69_union`, `c70_needed`, `c70_numbers`, `c70_accept`, `c71_bands_partial`, `c71_ndvire1n_violated`, `c71_read_missing`, `c71_count`, `c71_disc_partial`, `c72_value`, `c72_order`, `c72_swap`, `c72_proportion`, `c72_not_missing`, `c73_value_partial`, `c73_overflow_violated`, `c73_evi_violated`, `c73_bounded`, `c74_tasseled_partial`, `c74_overflow_violated`, `c74_bounded`, `c74_continuum`, `c74_continuum_reflectance`, `c75_kndvi`, `c76_cire`, `c76_nan_violated`, `c76_msr_partial`, `c76_msr_safe`, `c77_series`, `c77_collision_violated`, `c78_terminates`, `c79_best_partial`, `c79_step`, `c79_unconstrained`, `c79_mixture`, `c80_sum_violated`, `c80_sum_partial`, `c81_retain_partial`, `c81_endmember_violated`, `c81_shaded_violated`, `c81_overflow_violated`, `c81_normalized`, `c82_rmse`, `c82_rmse_violated`, `c83_seamless_partial`, `c83_west_violated`, `c83_plain`, `c84_rename`, `c84_rename_violated`, `c85_segments`, `c86_objects_partial`, `c86_corner_violated`, `c87_pixels_partial`, `c87_allpx_violated`, `c88_schedule`, `c89_statistics_partial`, `c89_max_violated`, `c89_std_violated`, `c89_geo_violated`, `c90_patches_partial`, `c90_ems_violated`, `c90_fdi_filled_violated`, `c90_fdi_single_violated`, `c90_unit_violated`, `c90_identifier_partial`, `c90_identifier_violated`, `c91_skipped`, `c91_majority`, `c92_mean_partial`, `c92_single_violated`, `c93_probability_partial`, `c93_tie_violated`, `c93_unanimous_violated`, `c93_classes_violated`, `c93_columns_violated`, `c94_skipped`, `c94_distance_partial`, `c94_far_violated`, `c94_constant_violated`, `c96_sampling`, `c96_optical`, `c96_radar_partial`, `c96_ratio_violated`, `c96_zero_violated`, `c96_chunks_violated`, `c97_counted`, `c97_average_partial`, `c97_masked`, `c97_seasons_violated`, `c98_between`, `c98_alone`, `c98_nodata`, `c98_weight`, `c99_level2_partial`, `c99_mask_violated`, `c99_band_violated`, `c100_texture`, `c100_standard_partial`, `c100_constant_violated`, `c101_fields_partial`, `c101_mask_violated`, `c101_feature_violated`, `c101_years_violated`, `c101_rejected`, `c101_before_violated`, `c102_components_partial`, `c102_distance`, `c102_nodata`, `c102_number`, `c102_all`, `c102_bands`, `c102_transposed_violated`, `c102_mean_violated`, `c103_position_partial`, `c103_once`, `c103_shifted_violated`, `c103_overview_violated`, `c103_whole`, `c103_rounding_violated`, `c104_written`, `c104_complete`, `c105_extent_partial`, `c105_curved_violated`, `c106_metres_partial`, `c106_degrees_violated`, `c106_gap_violated`, `c106_refused_violated`, `c106_chunks`, `c107_continents_partial`, `c107_nothing_else`, `c107_foreign_violated`, `c108_calendar`, `c108_accuracy_partial`, `c108_centuries_partial`, `c108_time_violated`, `c109_distance`, `c109_hour`, `c109_direction`, `c109_degenerate`, `c109_refraction`, `c109_sunpos`, `c110_instant_partial`, `c110_newyear_violated`, `c110_yearend_violated`, `c110_polar_violated`, `c110_defined`, `c111_corners`, `c111_middle`, `c112_distance`, `c112_zenith`, `c112_landsat`, `c112_single`, `c113_sides_partial`, `c113_direction_partial`, `c113_mirrored_violated`, `c113_degrees_violated`, `c114_lowsun`, `c114_first_row_partial`, `c114_north_violated`, `c115_off_partial`, `c115_neighbour_violated`, `c116_void_partial`, `c116_saturated`, `c116_void_violated`, `c116_buffer_partial`, `c116_border_violated`, `c117_frame`, `c117_detection_partial`, `c117_blue_violated`, `c117_green_violated`, `c118_reflectance`, `c118_negative`, `c118_monotone`, `c118_overflow_violated`, `c118_temperature`, `c118_warmer`, `c118_masked_partial`, `c118_masked_violated`, `c119_value_partial`, `c119_value_violated`, `c119_overflow_violated`, `c120_histogram_partial`, `c120_nodata_violated`, `c121_accepts`, `c121_bands`, `c121_position_violated`, `c122_grid_partial`, `c122_curved_violated`, `c123_pixel_partial`, `c123_edge_violated`, `c124_layers`, `c124_lossless`, `c124_nodata`, `c125_flags_partial`, `c125_off`, `c125_edge_violated`, `c125_cover`, `c126_depth_partial`, `c127_region`, `c127_seeds`, `c127_blocks_partial`, `c127_rows_violated`, `c127_columns_violated`, `c128_accepted`, `c128_exact_partial`, `c128_skip_violated`, `c129_distance`, `c129_none`, `c130_match`, `c130_object`, `c130_schedule`, `c130_members_partial`, `c130_small_violated`, `c131_potential`, `c131_snow_water`, `c131_clear`, `c131_probability`, `c131_variability_partial`, `c131_dark_violated`, `c131_negative_violated`, `c132_identify`, `c132_selection_partial`, `c132_foreign_violated`, `c132_substring_violated`, `c133_companion_partial`, `c133_sensor_violated`, `c133_errors_partial`, `c133_quality_violated`, `c134_range`, `c134_constant`, `c134_smooth`, `c134_weights`, `c134_mean`, `c134_missing_partial`, `c134_whole`, `c134_coverage_violated`, `c134_nodata_violated`, `c135_sigma`, `c135_half`, `c135_kernel`, `c136_mask`, `c136_quality`, `c137_options_partial`, `c137_missing`, `c137_mandatory_violated`, `c137_repeated_violated`, `c137_unreadable`, `c138_copies`, `c138_formats`, `c138_custom`, `c139_terminator_violated`, `c140_next_partial`, `c140_days_partial`, `c140_accepted`, `c140_leap_violated`, `c140_missing_day_violated`, `c140_skipped_violated`, `c140_repeated_violated`, `c141_corners`, `c141_granules`, `c142_average_partial`, `c142_swath_violated`, `c142_dateline_violated`, `c143_table_partial`, `c143_choice_violated`, `c144_roundtrip`, `c144_refused`, `c144_locations_partial`, `c144_missing_file_violated`, `c144_separator_violated`, `c145_climatology`, `c146_value_partial`, `c146_strict_violated`, `c146_strict_no_effect_violated`, `c146_nodata_violated`, `c146_dateline_violated`, `c147_first_partial`, `c147_kept`, `c147_history_partial`, `c147_collision_violated`, `c147_every_violated`, `c147_names_violated`, `c148_integers`, `c148_zero`, `c148_detected`, `c148_float_partial`, `c148_neighbours_violated`, `c149_bilinear_partial`, `c149_range_partial`, `c149_none`, `c149_border_violated`, `c149_inside`, `c150_bands`, `c150_reflectance_partial`, `c150_bright_violated`, `c150_nodata_violated`, `c151_nodata_partial`, `c151_values`, `c151_late_violated`, `c151_vapour_violated`, `c151_overflow_violated`, `c152_inside`, `c152_size`, `c152_stretch`, `c152_colours`, `c152_pixel`, `c153_distance_partial`, `c153_clear`, `c153_degrees_violated`, `c154_range_partial`, `c154_clouds`, `c154_kinds`, `c154_decay`, `c154_column_violated`, `c155_fractions`, `c155_target`, `c155_profile`, `c156_response_partial`, `c156_within_violated`, `c156_original`, `c156_lines`, `c157_classes`, `c157_proportional_partial`, `c157_equalized`, `c157_custom`, `c157_list_violated`, `c158_enough`, `c158_shares`, `c158_area`, `c158_interval`, `c159_overall`, `c159_range`, `c159_proportional`, `c159_perfect`, `c159_interval`, `c160_producer_partial`, `c160_producer_violated`, `c160_single_violated`, `c161_confusion`, `c161_aligned_partial`, `c161_mismatch_violated`, `c162_number`, `c162_bound`, `c163_proportional`, `c163_minimum`, `c163_total_violated`, `c164_all_partial`, `c164_single_violated`, `c164_comma_violated`, `c164_space_violated`, `c165_paired_partial`, `c165_lengths`, `c165_special_violated`, `c166_criteria`, `c166_latest`, `c166_found_partial`, `c166_twice_violated`, `c169_plane`, `c169_defined`, `c170_cosine`, `c170_flag`, `c171_step`, `c171_empty`, `c171_class`, `c172_flat`, `c172_direction`, `c172_documented_partial`, `c172_spectrum_violated`, `c172_cfactor`, `c172_regression`, `c172_stored`, `c173_exposition`, `c173_kept`, `c175_parts`, `c175_monotone`, `c175_albedo`, `c175_elevation`, `c175_gas`, `c175_gases`, `c176_inverse`, `c176_surroundings`, `c176_uniform_partial`, `c176_uniform_violated`, `c176_factors`, `c177_angle`, `c177_molecules`, `c177_aerosols`, `c177_forward`, `c177_reciprocal`, `c177_single`, `c178_weight`, `c178_pure`, `c179_reciprocal`, `c179_azimuth`, `c179_zenith`, `c179_factor_partial`, `c179_low_sun_violated`, `c179_bands`, `c180_fresnel_partial`, `c180_perpendicular_violated`, `c181_heuklon_partial`, `c181_range`, `c181_meridian_violated`, `c183_calibration`, `c184_minimum_violated`, `c184_refused_partial`, `c185_tier_partial`, `c185_order_violated`, `c186_columns`, `c186_rows`, `c186_resolution`, `c186_left`, `c186_top`, `c186_date`, `c186_time`, `c187_cell_partial`, `c187_between`, `c187_collapse`, `c187_north_violated`, `c187_detectors_violated`, `c187_zero_violated`, `c187_square_only`, `c188_covers`, `c188_aligned`, `c189_offset_partial`, `c189_range_violated`, `c190_exact_partial`, `c190_schedule_violated`, `c190_border_violated`, `c191_range_partial`, `c191_neighbours`, `c191_weight`, `c191_rounding_violated`, `c192_blocks_partial`, `c192_flag_violated`, `c192_candidate`, `c192_range`, `c192_flat`, `c192_weight`, `c192_close_violated`, `c192_stored`, `c192_off_violated`, `c193_order`, `c193_idempotent`, `c194_wide`, `c194_halo_partial`, `c194_halo_violated`, `c195_cosine`, `c195_range`, `c196_brightness`, `c196_nearest_partial`, `c196_close`, `c196_nine_violated`, `c196_global_violated`, `c197_only`, `c197_written`, `c197_stop`, `c198_python`, `c198_python_tsa`, `c198_r_pixel`, `c198_r_chunk_violated`, `c199_python_pixel`, `c199_r_pixel`, `c199_r_chunk_violated`, `c199_r_pixelwise`, `c200_python_violated`, `c200_r_partial`, `c201_python`, `c201_r_violated`, `c201_short_violated`, `c202_days_partial`, `c202_last_violated`, `c203_products_partial`, `c203_rms_violated`, `c203_inputs`, `c203_kinds`, `c204_files`, `c204_bands_partial`, `c204_bands_violated`, `c205_inter`, `c205_images`, `c206_fit`, `c206_nodata`, `c206_nrt_violated`, `c206_periodic`, `c207_rules`, `c208_grid_partial`, `c208_positive`, `c208_small_violated`, `c208_tenth_violated`, `c209_margin`, `c209_multiple_partial`, `c209_texture_violated`, `c209_kernel_violated`, `c210_tiles`, `c210_dates_violated`, `c210_years`, `c211_order`, `c211_count`, `c211_refused_violated`, `c212_consistent`, `c212_switches`, `c213_first_word_partial`, `c214_one_cell_partial`, `c214_straddle_violated`, `c215_reflectance`, `c216_best_match`, `c216_schedule_partial`, `c216_history_violated`, `c217_accepted`, `c218_least_squares`, `c218_angstrom`, `c219_cell`, `c219_map`, `c220_height`, `c221_nearest_partial`, `c221_antimeridian_violated`, `c221_empty_line_violated`, `c221_fallback`, `c222_rows`, `c222_band`, `c222_bilinear_partial`, `c222_between_partial`, `c222_identity_violated`, `c222_whole`, `c222_outside_violated`, `c223_band`, `c223_coregister_partial`, `c223_nearest`, `c223_off_violated`, `c224_few_points_violated`, `c224_limit_partial`, `c225_solution`, `c225_singular`, `c226_affine_partial`, `c226_polynomial_partial`, `c226_line`, `c226_conic`, `c226_shift_partial`, `c226_shift_violated`, `c227_kept`, `c227_removed`, `c227_perfect`, `c227_choice`, `c227_refit`, `c227_refit_dense`, `c227_error`, `c227_few`, `c228_attempts`, `c229_mean_partial`, `c229_bottom_violated`, `c229_layer`, `c230_similarity`, `c230_correlation`, `c231_order_violated`, `c232_comments`, `c232_skeleton`, `c233_default_partial`, `c233_lsp_violated`, `c234_mix_partial`, `c234_equal_violated`, `c234_comment_violated`, `c235_count_partial`, `c235_near`, `c235_all_violated`, `c235_runs`, `c235_empty_violated`, `c235_class`, `c235_split`, `c236_proportional`, `c236_antiproportional`, `c236_order`, `c236_custom`, `c236_none`, `c236_training_violated`, `c236_sum_partial`, `c236_negative_violated`, `c236_keyword`, `c237_criteria`, `c237_features`, `c237_grid`, `c238_accuracy`, `c238_rmse`, `c238_line`, `c239_images`, `c239_update`, `c239_complete`, `c239_directory`, `c239_directory_kept`, `c240_provenance`, `c240_table`, `c241_crash_violated`, `c241_order_violated`, `c241_recorded_partial`, `c242_stale_violated`, `c242_no_failure`, `c242_finish`, `c242_lost_violated`, `c243_timeout`, `c243_ends`, `c244_order`, `c244_cancelled`, `c245_accepted`, `c245_switches`, `c246_blocks`, `c246_own`, `c246_filled`, `c246_off`, `c246_estimates`, `c246_none_violated`, `c246_tiny_violated`, `c246_corner_violated`, `c246_valid_partial`, `c247_threads_partial`, `c247_threads_violated`, `c248_angle`, `c248_tabulated`, `c248_vapor_partial`, `c248_close_partial`, `c248_exact_violated`, `c249_own_partial`, `c249_corner_violated`, `c250_truth`, `c250_zero`, `c251_copy`, `c251_new`, `c251_size`, `c251_no_provenance`, `c252_more`, `c252_chunk`, `c253_interpolation`, `c253_single`, `c253_order`, `c253_monotone`, `c253_share`, `c253_range`, `c253_affine`, `c254_range`, `c254_colder`, `c254_warm`, `c254_mild`, `c254_cold`, `c254_share`, `c254_threshold`, `c255_share`, `c255_no_water`, `c255_colder`, `c256_mask`, `c256_dark`, `c256_calibration`, `c256_cover`, `c257_targets_partial`, `c257_first_violated`, `c257_stale_violated`, `c258_start`, `c258_unique`, `c258_scale`, `c258_length`, `c259_year`, `c259_between`, `c259_order`, `c259_empty_violated`, `c260_start`, `c260_seasons`, `c260_dates`, `c260_empty_violated`, `c261_skip`, `c261_pixels_partial`, `c261_cut_violated`, `c262_complete`, `c262_usable`, `c262_missing`, `c262_computed`, `c263_fields`, `c263_images`, `c264_classes_violated`, `c264_fields_violated`, `c264_statistic_violated`, `c264_number_violated`, `c264_level3`, `c264_cso_partial`, `c264_ml_partial`, `c264_texture_partial`, `c264_landscape_partial`, `c264_library_partial`, `c264_fields_partial`, `c264_improphe`, `c264_user`, `c265_folders_partial`, `c265_improphe_violated`, `c266_level3_partial`, `c266_bands`, `c266_windows`, `c266_composite_violated`, `c267_consistent`, `c268_percent`, `c268_computed`, `c268_eta`, `c269_complete`, `c269_unreadable`, `c270_write_violated`, `c271_points`, `c271_limit`, `c271_enough`, `c272_margin`, `c272_position_partial`, `c272_stale_violated`, `c273_reads`, `c273_ties`, `c274_reads`, `c274_match`, `c274_found`, `c275_ends`, `c275_float`, `c275_best`, `c276_flags`, `c276_clear`, `c276_cloudy_partial`, `c276_cloudy_violated`, `c277_nodata_partial`, `c277_fill_violated`, `c278_range_partial`, `c278_saturated_violated`, `c279_name_partial`, `c279_leap_violated`, `c279_refused`, `c279_distinct`, `c280_roundtrip`, `c280_integers`, `c280_histogram`, `c280_empty`, `c281_kept`, `c281_mean`, `c281_range`, `c282_mean`, `c282_disjoint`, `c282_complete_partial`, `c282_gap_violated`, `c283_flag`, `c284_accepted`, `c284_count`, `c284_stops`, `c285_accepted_partial`, `c285_format_violated`, `c286_accepted`, `c286_refused`, `c286_positive`, `c287_contains`, `c287_inside_partial`, `c287_edge_violated`, `c288_accepted`, `c288_positive`, `c288_refused_partial`, `c288_sizes_violated`, `c289_refused`, `c289_probability`, `c289_exact`, `c289_side`, `c290_left`, `c290_right`, `c290_two`, `c290_few`, `c291_text_partial`, `c291_vector_violated`, `c291_cut_violated`, `c291_size`, `c292_weights`, `c292_widths`, `c292_inside`, `c292_interior_partial`, `c292_zero_violated`, `c292_corner_violated`, `c293_points`, `c293_enough`, `c293_fresh`, `c293_search`, `c293_none`, `c293_image`, `c294_found`, `c294_only`, `c294_none`, `c294_long_partial`, `c294_exact_violated`, `c294_leak_violated`, `c294_starts`, `c294_count`, `c295_mission`, `c295_order`, `c295_closed`, `c296_enter`, `c296_safe`, `c296_empty`, `c296_tile_compact`, `c296_image_partial`, `c296_images_partial`, `c296_aux_violated`, `c296_dem`, `c297_python`, `c297_r`, `c297_tsa`, `c298_bands_partial`, `c298_stale_violated`, `c298_empty_violated`, `c298_r_partial`, `c298_released_violated`, `c299_finest`, `c299_layers`, `c299_masked`, `c299_blank`, `c300_step`, `c300_full`, `c300_monotone`, `c300_land`, `c300_depth`, `c300_range_partial`, `c300_range_violated`, `c301_interrupted_violated`, `c301_killed_violated`, `c301_stuck_violated`, `c302_tries`, `c303_pattern`, `c303_listed`, `c303_unlisted`, `c303_untouched`, `c303_data`, `c304_header_partial`, `c304_newline_violated`, `c304_long`, `c304_missing`, `c304_unset_violated`, `c305_copied`, `c305_refused`, `c305_last`, `c306_grid_partial`, `c306_single`, `c306_glance_violated`, `c307_lines`, `c307_distinct`, `c308_written`, `c308_kept`, `c308_nodir`, `c308_killed_violated`, `c308_denied_violated`, `c309_written_partial`, `c309_again`, `c309_incomplete_violated`, `c309_continents_violated`, `c309_mixed_violated`, `c310_txt`, `c310_txt_order`, `c310_txt_unknown`, `c310_lsm`, `c310_lsm_order`, `c310_lsm_unknown`, `c311_terra`, `c311_aqua`, `c311_untouched`, `c312_accepted_partial`, `c312_rejected`, `c312_nan_violated`, `c313_objective`, `c314_grid`, `c314_pixel`, `c315_mean`, `c316_height`, `c316_bounds`, `c317_slope`, `c317_recovers`, `c318_2d`, `c318_2d_count`, `c318_2dc_partial`, `c318_2dc_violated`, `c318_3d`, `c318_table`, `c318_twice_partial`, `c318_twice_violated`.

## 4. Disagreements between code and property

Each entry is a theorem about the model: for the stated inputs the code does not do what the property says.

* **C04** `c04_date_step_violated` (`Date/Props.lean`): C04 is violated by the day-stepping functions of datesys-cl.c: they leave the quarter unchanged. Whenever the neighbouring day lies in another quarter, the record becomes inconsistent.
* **C05** `c05_dummy_date_violated` (`Date/Props.lean`): C05 is violated: when the first word has eight characters but is no acceptable date, the caller's record is left as it was instead of receiving the dummy date.
* **C05** `c05_invalid_day_accepted_violated` (`Date/Props.lean`): C05 is violated: days that do not exist are accepted.
* **C05** `c05_non_number_accepted_violated` (`Date/Props.lean`): C05 is violated: first words that are not numbers are accepted.
* **C05** `c05_no_word_ub_violated` (`Date/Props.lean`): C05 is violated: a string without a first word (empty, separators only, comment only) dereferences a null pointer.
* **C06** `c06_seconds_violated` (`Date/Props.lean`): C06 is violated: from 30 years on, the "year" field counts units of 30 years.
* **C08** `c08_illumination_violated` (`Qai/Props.lean`): C08 is violated: "using the most restrictive one" does not hold for the illumination state. Two scenes, one of which is in terrain shadow at this pixel, give "good illumination".
* **C10** `c101_mask_violated` (`Imp/Drive.lean`): pixels that are excluded by the processing mask are zero in the product, not nodata.
* **C10** `c101_feature_violated` (`Imp/Drive.lean`): where the first feature is not valid, all features are zero in the product (valid features are not predicted, invalid features do not keep the data).
* **C10** `c101_years_violated` (`Imp/Drive.lean`): after the first requested year without fine resolution data, the bands of all further years are zero, whatever data there are.
* **C10** `c101_before_violated` (`Imp/Drive.lean`): a requested year before the first year of the file is not rejected; data before the first band are read.
* **C10** `c100_constant_violated` (`Imp/Texture.lean`): if all valid values of an image are equal, standardising divides by zero at every valid pixel.
* **C10** `c103_shifted_violated` (`L2tile/Cut.lean`): datasets that are not on the grid of the datacube (tiles without reprojection) are shifted: the value at each pixel is that of a pixel whose left edge is elsewhere, by less than a pixel.
* **C10** `c103_overview_violated` (`L2tile/Cut.lean`): a product with coarser resolution (the overview) is written with the resolution of the quality product in its geotransformation: its extent is a fraction of the tile.
* **C10** `c106_degrees_violated` (`L2tile/MultiProps.lean`): with resolutions up to 0.005 (all geographic datacubes with pixels below 500 m), every tile size is accepted; and a tile that is no multiple of the resolution has a strip, narrower than a pixel, that belongs to none of its pixels.
* **C10** `c106_gap_violated` (`L2tile/MultiProps.lean`): rounding makes tiles of 0.3 degrees with pixels of 0.0001 degrees one pixel too small: 2999 instead of 3000 columns, without a message.
* **C10** `c106_refused_violated` (`L2tile/MultiProps.lean`): rounding also makes the program refuse multiples: tiles of 1 degree with pixels of 0.01 degrees.
* **C10** `c107_foreign_violated` (`L2tile/MultiProps.lean`): once a continent is covered, its list of tiles is not consulted again: every tile of the extent with enough clear data is written, also those that belong to another continent.
* **C10** `c105_curved_violated` (`L2tile/Range.lean`): edges of the image that are curved in the projection of the datacube leave the extent, which is made from the four corners only: an image of any size in the first tile, of which the middle of the upper edge is in the tile above.
* **C10** `c103_rounding_violated` (`L2tile/Range.lean`): with resolutions that are no binary fractions, rounding shifts tiles by a pixel: tiles of 0.3 degrees with pixels of 0.1 degrees, the data start at the origin: the second tile starts at column 2 instead of 3.
* **C10** `c102_transposed_violated` (`Pca/Props.lean`): the data are multiplied with the transposed matrix, so that the components are not the projections on the eigenvectors: for an image with two bands, the components are correlated, and the first, which has most of the variance according to its eigenvalue, has less variance than the second one (which may be dropped).
* **C10** `c102_mean_violated` (`Pca/Props.lean`): the mean of a band includes pixels that are left out because another band is nodata, but is divided by the number of complete pixels: with one complete pixel, it is not centred at zero.
* **C10** `c108_time_violated` (`Sun/Julian.lean`): the time of the day is only known to six hours: for all times from 6k-3 hours (and one minute) to 6k+3 hours (less one minute) of a day, the Julian centuries, and with them declination and equation of time, are the same.
* **C11** `c116_void_violated` (`L1/Bounds.lean`): the bands are looked at one after the other, and a saturated band ends the search. If a saturated band comes before the first void band, the pixel is not masked, although it is void.
* **C11** `c116_accepted_violated` (`L1/Bounds.lean`): an image in which every pixel is saturated in a band before the temperature (for instance a scene that is covered by bright clouds) is rejected as having a "zero-filled temperature", whatever the temperature is.
* **C11** `c116_border_violated` (`L1/Bounds.lean`): with the buffer, pixels at the edge of the image are never masked for being void themselves: if all void pixels are at the edge, no pixel at all is masked.
* **C11** `c118_overflow_violated` (`L1/Landsat.lean`): the reflectance is not limited. From 3.2768 on (for instance bright clouds when the sun is low) the conversion to 16 bits is undefined.
* **C11** `c118_masked_violated` (`L1/Landsat.lean`): the bands are converted one after the other. A pixel that is masked since its reflectance is zero or negative in a band has nodata in this and in the following bands only; in the bands before, it keeps its values.
* **C11** `c117_blue_violated` (`L1/Noise.lean`): noise in the blue band is never detected. If the standard deviation of blue is not smaller than the ones of green and red, the pixel is not masked, however large it is.
* **C11** `c117_green_violated` (`L1/Noise.lean`): if green has the largest standard deviation and red the second largest one, green is compared with blue, and red does not matter: pixels are masked although two bands deviate by the same amount.
* **C11** `c119_value_violated` (`L1/Sentinel.lean`): a reflectance of 0.0007 (the digital number 7, or 1007 with the offset of -1000) becomes 6, that is 0.0006, whatever the conversion of ties.
* **C11** `c119_overflow_violated` (`L1/Sentinel.lean`): reflectances above 3.2769 (the digital number of saturated pixels is 65535) are not limited; the conversion to 16 bits is undefined.
* **C11** `c110_newyear_violated` (`Sun/Local.lean`): at the turn of the year, the day is clamped: the instant is a day too late on 1 January where it should be in the old year.
* **C11** `c110_yearend_violated` (`Sun/Local.lean`): and it is a day too early on 31 December (day 365 of the year) where it should be in the new year.
* **C11** `c110_polar_violated` (`Sun/Local.lean`): north of 81.38 degrees, where there are Sentinel-2 images, the local time is not a number.
* **C11** `c113_mirrored_violated` (`View/Angles.lean`): the rows of the image are taken to go from south to north, so that the view azimuth is mirrored: going the distance in this direction, one never arrives at the nadir line (whatever the lengths of a degree of longitude and latitude are).
* **C11** `c113_degrees_violated` (`View/Angles.lean`): also with rows from north to south, the azimuth would not be the direction to the nadir line where a degree of longitude is shorter than a degree of latitude (away from the equator), unless the line goes north: differences of degrees are used as if they were lengths.
* **C11** `c115_neighbour_violated` (`View/Cells.lean`): for images of 10 m (500 pixels in a cell), rounding sets off one row of pixels of the cell above, although it has view angles: row 499, if a cell of the second row has none.
* **C11** `c114_north_violated` (`View/Cells.lean`): the sun angles of the other rows are not those of a location in the cell: row `e` extends from `5000 * e` to `5000 * (e + 1)` metres south of the upper edge of the image, the location is `5000 * e` metres north of it.
* **C12** `c125_edge_violated` (`Cloud/Final.lean`): if all detected clouds are closer to the edge of the image than the buffer distance, then no pixel gets state 1 (there is no buffer around them), and wherever there is cirrus, a detected cloud is declared cirrus (state 3) instead of opaque cloud (state 2).
* **C12** `c128_skip_violated` (`Cloud/Final.lean`): an image is skipped and reported as 100 % covered as soon as clouds cover more than 80 % of the allowed percentage (any allowed percentage below 100), even if clouds and shadows together cover less than the allowed percentage: the shadows are not looked for at all.
* **C12** `c127_rows_violated` (`Cloud/Grow.lean`): if the number of rows is odd and there is a valid, potentially cloudy pixel in the last row (in an even column), the program writes outside of its arrays.
* **C12** `c127_columns_violated` (`Cloud/Grow.lean`): if the number of columns is odd, the ratios of the last column are stored in the first cell of the next row, even if there is no potential cloud in the block of this cell (no pixel of the block has data, say).
* **C12** `c126_threads_violated` (`Cloud/Shadow.lean`): the result depends on the number of threads. With one thread, the value of a pixel is the depth of the short-wave infrared image, also where the near infrared image has a smaller depth, which is the result with several threads.
* **C12** `c122_curved_violated` (`Tools/Grid.lean`): only the corners of the box in degrees are projected. Let `project` be the projection; if a point of the box is projected more than a tile above the corners, as it happens in every projection whose parallels are curved if the box is wide enough, no tile of the result contains it.
* **C12** `c123_edge_violated` (`Tools/Grid.lean`): a point on the vertical edge between two tiles, right of the origin, is assigned to the left tile, and its column is the number of columns: there is no such pixel.
* **C12** `c120_nodata_violated` (`Tools/Props.lean`): the nodata value is converted to 16 bits. If it is not in this range (for instance 65535, or the smallest `float`), the result is undefined, whatever the image.
* **C12** `c121_position_violated` (`Tools/Props.lean`): position and projection of the files are read, but not compared. Files of the same size are stacked whatever they are, and the stack has the position of the first one.
* **C13** `c132_foreign_violated` (`Ard/Names.lean`): a file that is an image, with requested product and sensor somewhere in its name, but whose first word is not eight characters long (e.g. mosaic_LND08_BOA.tif), is not ignored: the program ends, whatever else is in the directory.
* **C13** `c132_substring_violated` (`Ard/Names.lean`): product and sensor are searched anywhere in the name. An image whose product field only contains the requested product is read as if it were the requested product; and the program ends if the sensor field of an image contains a requested sensor without being one.
* **C13** `c134_coverage_violated` (`Ard/Psf.lean`): if the ratio of the resolutions is no whole number, parts of the footprint can be left out. With five fine pixels per three coarse pixels, the coarse rows 1, 4, 7, … do not look at the fine rows 3, 8, 13, …, a fifth of their area: with the rest missing they are missing, whatever is there.
* **C13** `c134_nodata_violated` (`Ard/Psf.lean`): nodata is recognised after the conversion to reflectance. If the nodata value is k and all pixels have the value 10000·k, the aggregated image is missing everywhere.
* **C13** `c133_sensor_violated` (`Ard/Reading.lean`): if the name of the main product occurs in the sensor field, that field is changed and not the product: the quality image of the image is not looked for under its name.
* **C13** `c133_quality_violated` (`Ard/Reading.lean`): if quality is needed, there is no quality product (`PRODUCT_TYPE_QUALITY = NULL`), and the main product is not read (clear-sky observations), the behaviour is undefined as soon as there is an image: a copy of an image that is not there is made.
* **C13** `c131_dark_violated` (`Cloud/Class.lean`): for a pixel without any reflectance in the visible bands, the conversion of the variability probability is undefined (0/0).
* **C13** `c131_negative_violated` (`Cloud/Class.lean`): if one of the red and the near infrared reflectances is negative, such that their sum is small compared with their difference, the variability probability does not fit into 16 bits, and the conversion is undefined.
* **C13** `c130_small_violated` (`Cloud/Shadow.lean`): with pixels of 15 m or less, an object without a pixel whose row and column are multiples of the integer part of 30 m divided by the size of a pixel (for example a cloud of any length in two neighbouring rows of a 10 m image) never gets a shadow, whatever the potential shadows are.
* **C13** `c137_mandatory_violated` (`Gdalopt/Props.lean`): a file with the two mandatory lines only (driver and extension) ends the program.
* **C13** `c137_repeated_violated` (`Gdalopt/Props.lean`): if driver or extension is given more than once, GDAL is given, in addition to the options of the file, options with empty name and value.
* **C13** `c139_terminator_violated` (`Gdalopt/Props.lean`): neither of the arrays with the options for the reprojection and the rasterization of vector data has an end, whatever the projection: GDAL reads behind them.
* **C14** `c14_border_violated` (`Buffer/Props.lean`): TRUE pixels closer than `r` to an edge are ignored. An image whose TRUE pixels are all within `r` pixels of an edge is empty after buffering.
* **C14** `c147_collision_violated` (`Cite/Props.lean`): two runs that differ exactly in NDVI (reference 21) and two red edge indices (references 43 and 44), for example by exchanging the one for the others, have the same file name. If the one follows the other in the same directory, its references are not written.
* **C14** `c147_every_violated` (`Cite/Props.lean`): for every run there is a run with other methods whose file has the same name, so that its references are not written if it follows in the same directory.
* **C14** `c147_names_violated` (`Cite/Props.lean`): there are only 256 names, for every number of runs and of methods.
* **C14** `c149_border_violated` (`Prod/CoarseProps.lean`): within half a cell of the left edge, a cell without data takes part with its full weight: the value is interpolated with whatever the cell contains, although the cell below holds data.
* **C14** `c148_neighbours_violated` (`Prod/Equal.lean`): in a brick of the type `float`, the two `float` numbers next to the nodata value count as nodata, too, whatever the nodata value is (a number with 24 significant bits `m`, other than a power of two).
* **C14** `c142_swath_violated` (`Wvp/AvgProps.lean`): with the image sizes of the MODIS product (1354 columns, 10 rows per scan, geolocation of 270 columns and one row for five, offset 2) the geolocation is read outside of its array, whatever the granule contains.
* **C14** `c142_dateline_violated` (`Wvp/AvgProps.lean`): near the date line, pixels on its other side are not used: if all pixels of the granules lie in the frame of a location between 179.25 and 180 degrees east, but on the other side of the date line, the value is 9999.
* **C14** `c143_choice_violated` (`Wvp/AvgProps.lean`): the documented choice is the sensor with more pixels used for averaging. Terra is used also if fewer pixels were averaged than for Aqua, whenever it has as many pixels in the frame (clear or not).
* **C14** `c140_leap_violated` (`Wvp/DayProps.lean`): in every leap year, the period from 1 March to 29 February is accepted although it ends before it starts, and the program never ends.
* **C14** `c140_missing_day_violated` (`Wvp/DayProps.lean`): a period that ends on 30 February is accepted (in every year before the current one, with every first day of the same or an earlier year until 28 February), and the program never ends.
* **C14** `c140_skipped_violated` (`Wvp/DayProps.lean`): if the program runs in the last hour of a day in winter (standard time), it skips days: after a day with daylight saving time follows the day after the next one.
* **C14** `c140_repeated_violated` (`Wvp/DayProps.lean`): if the program runs in the first hour of a day in summer (daylight saving time), it does not leave a day in winter: the same day follows.
* **C14** `c146_strict_violated` (`Wvp/ImageProps.lean`): strict mode does not forbid the climatology. Whenever there is no daily value (no table of the day, no location near, or no value at the closest location) and the climatology has one, the value of the climatology is used although STRICT_WATER_VAPOR is set.
* **C14** `c146_strict_no_effect_violated` (`Wvp/ImageProps.lean`): STRICT_WATER_VAPOR has no effect at all if no table holds a negative value: every image gets the same result with and without it.
* **C14** `c146_nodata_violated` (`Wvp/ImageProps.lean`): if neither the day nor the climatology has a value at the closest location (9999 in both tables), the image is processed with 9999 cm of water vapour.
* **C14** `c146_dateline_violated` (`Wvp/ImageProps.lean`): a location on the other side of the date line is never used, however close it is. If the tables have only locations with longitudes above 178.5 degrees, every image with its centre west of 0 degrees fails, also one at 179.9 degrees west.
* **C14** `c144_missing_file_violated` (`Wvp/LutProps.lean`): if the file with the locations cannot be opened, the program is not stopped: it continues with one location and a pointer that was never set.
* **C14** `c144_separator_violated` (`Wvp/LutProps.lean`): a line without space (also an empty line, or numbers separated by a tabulator or comma) gives undefined behaviour, wherever it occurs in a file of otherwise correct lines.
* **C15** `c15_order_violated` (`Buffer/Fill.lean`): take any image in which a FALSE pixel `a` with five TRUE neighbours is a neighbour of a FALSE pixel `b` with just four. If `a` is processed before `b`, `b` is set (although it has not five TRUE neighbours in the input image); if `b` is processed first, it is not.
* **C15** `c156_within_violated` (`Mix/ClassProps.lean`): with WITHIN_CLASS_MIXING, as soon as the target class is drawn again (with a fraction above 0), the response is smaller than the share of the target class: mixtures of samples of the target class only are labelled as mixed.
* **C15** `c157_list_violated` (`Mix/ClassProps.lean`): with a list of classes, the likelihoods PROPORTIONAL are those of other classes: the class at position `i` of the list has the probability of the class at position `i` of all classes of the response in ascending order, whatever its own number of samples is.
* **C15** `c154_column_violated` (`Prod/BackgroundProps.lean`): in a column without a clear pixel, the average of the surroundings is 0 at every cloudy pixel, whatever the reflectance of the clear pixels elsewhere is.
* **C15** `c150_bright_violated` (`Prod/BoaProps.lean`): the documentation says that a reflectance estimate above 2.0 is nodata. It is not: the pixel keeps its large values.
* **C15** `c150_nodata_violated` (`Prod/BoaProps.lean`): a reflectance between −1 and −0.9999 becomes the nodata value −9999, but the pixel is not flagged as nodata.
* **C15** `c151_late_violated` (`Prod/Level2Props.lean`): HOT and AOD are compiled before the reflectance. A pixel that becomes nodata because its reflectance is below −1 is nodata in the quality product and in the reflectance, but keeps its values in HOT and AOD.
* **C15** `c151_vapour_violated` (`Prod/Level2Props.lean`): the water vapour image of Sentinel-2 is 0 instead of −9999 where the input is nodata; and outside of the area of interest it holds the estimated water vapour, although these pixels are nodata in the quality product.
* **C15** `c151_overflow_violated` (`Prod/Level2Props.lean`): a water vapour value of a Landsat scene that does not fit (the database of C146 contains 9999 for missing days) makes the conversion undefined.
* **C15** `c153_degrees_violated` (`Prod/OverviewProps.lean`): the unit is the projection unit, and the number has no decimal places. In geographic coordinates (for instance with a resolution of 0.0003°), the product is 0 at all pixels that are closer to a cloud than one degree: as if they were inside of the cloud.
* **C16** `c161_mismatch_violated` (`Assess/ClassProps.lean`): a single common class is enough. Whenever the classes of the sample are `c₀ < … < d` (at least two of them) and the table has the same classes but another one `c` instead of the last, it is accepted, and the count of class `c` is used for class `d`.
* **C16** `c160_producer_violated` (`Assess/Props.lean`): the program divides by the number of samples of the reference class instead of the map class. The variance of the producer's accuracy is wrong for every class with different numbers, unless the first term is zero; it is too small if the class has more samples in the reference than in the map.
* **C16** `c160_single_violated` (`Assess/Props.lean`): a class with a single sample in the reference has no standard error of the producer's accuracy at all, however many samples its map class has.
* **C16** `c163_total_violated` (`Assess/SizeProps.lean`): the samples left after the rare classes are distributed with the shares of the whole area, which do not sum to 1 over the big classes. The compromise falls short of the suggested number by the share of the rare classes in the rest: it has always fewer samples than suggested, unless the rare classes are empty or take them all.
* **C16** `c166_twice_violated` (`Csd/Props.lean`): of two acquisitions of the same tile on the same day (successive orbits at high latitudes, or two satellites), at most one is selected, whatever the catalogue is.
* **C16** `c168_queue_violated` (`Csd/Props.lean`): a run that is interrupted between the download of a scene and its entry in the queue loses the scene: it is complete in the pool, but no later run, with or without interruptions, ever puts it into the queue.
* **C16** `c168_files_violated` (`Csd/Props.lean`): a run that is interrupted after the first file of a scene of two or more files leaves a scene that no later run completes or queues.
* **C16** `c164_single_violated` (`Magic/Props.lean`): a vector of a single value is not expanded by the shell; the value is put in with braces.
* **C16** `c164_comma_violated` (`Magic/Props.lean`): a value with a comma is taken apart: `a,b` counts as the two values `a` and `b`.
* **C16** `c164_space_violated` (`Magic/Props.lean`): a space at the end of the definition adds a parameter file with an empty value.
* **C16** `c165_special_violated` (`Magic/Props.lean`): a value with `+` is not put in at all, and a `&` in a value is replaced by the use of the variable: with the value `v` in the only vector, the use `{%k%}` becomes itself, or `v` with `{%k%}` at each `&`.
* **C17** `c179_low_sun_violated` (`Radtran/Factor.lean`): for every band, if the sun is lower than about 2 degrees above the horizon and the sensor in the zenith, the factor is negative: a positive reflectance becomes negative.
* **C17** `c176_uniform_violated` (`Radtran/Invert.lean`): the two corrections disagree about the absorption of the light that is scattered by the atmosphere. Whenever gases absorb and the atmosphere scatters, the correction of the surroundings returns a uniform surface brighter than the correction without surroundings.
* **C17** `c17_on_grid_violated` (`Tile/Props.lean`): The code disagrees with the property for every corner that is already on the grid: it is moved by a full pixel in both directions.
* **C17** `c174_coast_violated` (`Topo/Grid.lean`): sea that is connected along the row first and then along the column is not found: next to land, it stays without elevation.
* **C17** `c172_spectrum_violated` (`Topo/Levels.lean`): the factor is the same for all bands; wherever a slope is not as bright as flat terrain, a band whose share of diffuse light differs from SWIR2 gets a wrong factor.
* **C18** `c184_minimum_violated` (`Meta/Accept.lean`): an image is accepted although the minimum radiance is missing. For every accepted metadata file, the file without the lines that give the minimum radiance of the bands is accepted as well, and every band is then calibrated with the fill value -32768 as minimum radiance.
* **C18** `c185_order_violated` (`Meta/Fields.lean`): the category of an image is forgotten if the product type is named after it. Whatever the category is, real-time or tier 2: a file in which a line with the product type `L1T...` follows the line with the category is taken as tier 1, and is accepted by users who accept tier 1 only.
* **C18** `c187_north_violated` (`Meta/GridProps.lean`): directions on both sides of north are averaged to the opposite direction. Whatever the angle `e` between 0 and 180 is: a cell whose corners see the sun `e` degrees west and `e` degrees east of north gets the azimuth 180, south.
* **C18** `c187_detectors_violated` (`Meta/GridProps.lean`): detectors that look in opposite directions, as neighbouring detectors do, give a view azimuth at right angles to both.
* **C18** `c187_zero_violated` (`Meta/GridProps.lean`): an angle of exactly zero at a corner counts as missing.
* **C18** `c189_range_violated` (`Meta/GridProps.lean`): the offset of a band the product does not have is not ignored but written beyond the table of offsets, for every such band number.
* **C18** `c180_perpendicular_violated` (`Radtran/Water.lean`): with the sun in the zenith, the reflection is the quotient of zero by zero.
* **C18** `c181_meridian_violated` (`Radtran/Water.lean`): on the prime meridian north of the equator, the phase of the southern hemisphere is used: at every latitude up to the pole and on every day, the amount differs from that of the model, which has no jump there.
* **C18** `c182_location_violated` (`Radtran/Water.lean`): in every other grid there is a cell whose ozone is computed for the location of another cell, and if there are more rows than columns for a location outside the grid.
* **C19** `c19_projection_cut_violated` (`Cube/Props.lean`): The code disagrees with the property: a projection is cut at its first blank.
* **C19** `c19_precision_violated` (`Cube/Props.lean`): The code disagrees with the property: two different definitions have the same file (only six decimals are written). Both numbers are doubles.
* **C19** `c19_missing_tag_violated` (`Cube/Props.lean`): The code disagrees with the property: the file without `TILE_SIZE_Y` is accepted, with a tile height of zero.
* **C19** `c19_blank_line_violated` (`Cube/Props.lean`): The code disagrees with the property: the trailing blank line makes the program fall back to the old format, in which the tags are taken for values; the file is accepted, with all numbers zero.
* **C19** `c196_nine_violated` (`Homo/Select.lean`): the scan for the nearest cluster leaves out cluster number 9 instead of the global one. If that is the only similar cluster, even if the pixel is its centre, it is not used: the global regression is used alone.
* **C19** `c196_global_violated` (`Homo/Select.lean`): if the global cluster is the nearest one and less than 4 degrees away, it is taken as one of the clusters. A cluster that is farther away than the global one, and more than 4 degrees, is then used too.
* **C19** `c191_rounding_violated` (`Merge/Improphe.lean`): the result is truncated after a computation in `double`, so that a homogeneous band does not stay homogeneous. A kernel of 13 pixels that all have the value 7 gives 6, and a single valid pixel of value 3 gives 2 (with any rounding to nearest).
* **C19** `c190_schedule_violated` (`Merge/Regression.lean`): the result depends on the order in which the threads treat the pixels. Two neighbouring pixels with the same values in the 10 m bands, and values of the 20 m band that differ by at least 16 (0.0016): both orders give different results.
* **C19** `c190_border_violated` (`Merge/Regression.lean`): at the border of the image and next to pixels without data, where the window is not complete, a homogeneous 20 m band does not stay homogeneous. For every incomplete window with pixels of two brightnesses in the 10 m bands, the regression does not return the value all pixels have in the 20 m band.
* **C19** `c192_flag_violated` (`Merge/Starfm.lean`): whether a block is reduced does not depend on its own pixels, but on the pixel with the number of the block. If that pixel is off, the block keeps its values at full resolution.
* **C19** `c192_close_violated` (`Merge/Starfm.lean`): candidates that are very close (product of the differences below 0.004) are meant to have the largest weight, but have a smaller weight than those that are less close (product between 0.004 and 0.4) at a distance of at most 1.4 pixels.
* **C19** `c192_off_violated` (`Merge/Starfm.lean`): a pixel that is off loses its nodata value; it is set to 0.
* **C19** `c193_nodata_violated` (`Texture/Props.lean`): nodata is taken for a value. A usable pixel next to a pixel without data is nodata in the erosion, and the gradient is the difference between the dilation and the nodata value.
* **C19** `c193_mask_violated` (`Texture/Props.lean`): without the exclusion of unusable pixels, the processing mask has no effect: pixels outside of the mask have the same values as without a mask.
* **C19** `c194_halo_violated` (`Texture/Props.lean`): opening and closing look twice as far as the halo that is read. For every radius and every number of iterations there are data for which the opening of a pixel at the border of a block is 10 if the tile is divided into blocks, and 0 if it is not.
* **C19** `c198_r_chunk_violated` (`Udf/PropsR.lean`): the array that an R function for chunks gets is filled as if rows and columns were swapped. Its element at row 1 and column 0 is the pixel at row 0 and column 1; element `[t, b, y, x]` is pixel number `y + ny * x`, not `y * nx + x`.
* **C19** `c199_r_chunk_violated` (`Udf/PropsR.lean`): element `[b, 1, 0]` (row 1, column 0) of the result of an R function for chunks is written to row 0 and column 1 of the product.
* **C20** `c20_replaced_violated` (`Cube/Props.lean`): The code disagrees with the property: the existence of the file is tested before the lock is taken, so a second process replaces the definition after the first one has successfully finished.
* **C20** `c20_lock_leak_violated` (`Cube/Props.lean`): The code disagrees with the property: if the file cannot be opened, the process returns without releasing the lock, and nobody can ever release it.
* **C20** `c208_small_violated` (`Rules/Props.lean`): with a resolution up to 0.005 (a data cube in degrees) every positive chunk size is accepted, whether it is a multiple of the resolution or not.
* **C20** `c208_tenth_violated` (`Rules/Props.lean`): with a resolution of 0.1, as it is stored in a `double`, no chunk size of whole units is accepted, although all of them are multiples.
* **C20** `c209_texture_violated` (`Rules/Props.lean`): for texture, any radius is accepted if its product with the number of iterations is a multiple of the resolution; if it is not a multiple itself, the neighbourhood is smaller than requested.
* **C20** `c209_kernel_violated` (`Rules/Props.lean`): for ImproPhe only the larger one of the two radii has to be a multiple of the resolution.
* **C20** `c202_last_violated` (`Tsa/Dates.lean`): whenever the length of the period is not a multiple of the step, the last requested day has no layer: the number of layers is rounded down, because `ceil` is applied to the quotient of two integers.
* **C20** `c206_nrt_violated` (`Tsa/Harmonic.lean`): in the same pixels every near-real-time value is 0, as if the observation agreed with the model, instead of nodata: outside of the processing mask, and where no model could be fitted, even at dates without a valid observation.
* **C20** `c204_bands_violated` (`Tsa/Names.lean`): without interpolation, two images of one day (of two sensors, say) give two bands of the product TSI with the same file name.
* **C20** `c203_rms_violated` (`Tsa/Props.lean`): if the error of the unmixing is requested, and SMA is one of several indices, an error product is also written for every other index, although nothing was unmixed.
* **C20** `c200_python_violated` (`Udf/Props.lean`): the processing mask has no effect on Python functions. A function for pixels is applied to pixels outside of the mask, and its values are in the product.
* **C20** `c200_r_chunk_violated` (`Udf/PropsR.lean`): with an R function for chunks, values for pixels outside of the processing mask are written into the product.
* **C20** `c201_r_violated` (`Udf/PropsR.lean`): an error in R code, which is reported by a null pointer, is not noticed: the null pointer is dereferenced.
* **C20** `c201_short_violated` (`Udf/PropsR.lean`): if an R function for pixels returns fewer values than there are output bands, memory behind the end of the result is read.
* **C21** `c216_history_violated` (`Aod/Fit.lean`): for a target that is implausible from the first value on, in all bands, the estimates of the target before it in the same thread are taken. It gets the AOD of that target; if it is the first one of the thread it is rejected. The result depends on the number of threads and on the schedule.
* **C21** `c214_straddle_violated` (`Aod/Objects.lean`): with the resolution of Landsat (30 m, cells of 5000 m) the separating rows and columns are not those of the grid. Any dark pixels in rows and columns 1661 to 1667 along the diagonal form one target, although they are in two cells.
* **C21** `c210_dates_violated` (`Rules/Props.lean`): the order of the dates is not looked at. With any accepted parameters, a period that ends before it begins is accepted as well; its number of years is not positive.
* **C21** `c211_refused_violated` (`Rules/Props.lean`): features with a path, without a file extension, or with a negative band number are recognised, but not refused: all of them are used.
* **C21** `c213_long_violated` (`Rules/Props.lean`): a file that begins with a longer word (a binary file, say) overruns the buffer.
* **C22** `c221_antimeridian_violated` (`Aod/Site.lean`): distances are differences of degrees, so a site on the other side of the antimeridian is not the nearest one: at every latitude, a site two degrees to the west is taken rather than one that is one degree to the east across the antimeridian.
* **C22** `c221_empty_line_violated` (`Aod/Site.lean`): an empty line anywhere in the file, e.g. at its end, is undefined behaviour.
* **C22** `c229_bottom_violated` (`Coreg/Pyramid.lean`): a pixel of the pyramid in one of the last `h` rows does not use these rows at all, not even the pixel itself: if only the last rows have data, it has no data.
* **C22** `c222_identity_violated` (`Coreg/Register.lean`): an image that is not moved at all is changed nevertheless: every negative value is increased by one.
* **C22** `c222_outside_violated` (`Coreg/Register.lean`): at a position less than one pixel to the left of the image, the value is extrapolated from the two leftmost pixels, and exceeds both of them if the first one is larger.
* **C22** `c223_off_violated` (`Coreg/Register.lean`): if the image is moved to the right by more than 1 and less than 1.5 pixels, the first pixel of a row has no data, but its quality is the one of the first pixel of that row before: unless the row is among the first pixels, as many as there are rows, the pixel is clear without having data.
* **C22** `c224_few_points_violated` (`Coreg/Register.lean`): if the dense matching finds fewer than twelve tie points, the image is not refused. All coefficients are zero then: every pixel of every band becomes a copy of the first pixel of that band.
* **C22** `c226_shift_violated` (`Coreg/Shift.lean`): if the mean difference of the tie points is one pixel or more in one direction, the fitted shift is too large by the fraction 1/(2n), where n is the number of tie points, in both directions: the normal equations of the first step are not cleared before the second one.
* **C23** `c231_order_violated` (`Coreg/Control.lean`): with two files for the same year, the order of the directory decides which one is used, for instance a side-car file instead of the image.
* **C23** `c23_float_violated` (`Pipeline/Props.lean`): C23 is violated beyond: with 4 chunks per tile, unit 2^25 + 3 is assigned to the wrong tile and to chunk column -1, because its number is not representable in single precision.
* **C23** `c233_lsp_violated` (`Skel/Default.lean`): the default of BASE_LSP is one name, but the program wants three: Level 3 processing refuses every parameter file in which this line of the skeleton was not replaced, although the names are not used unless LSP_DO is set, and whatever the other values are.
* **C23** `c234_equal_violated` (`Skel/Mix.lean`): if the text of any value contains an equal sign (a path, say), the parameter is ignored, and the file is refused because the parameter is missing.
* **C23** `c234_comment_violated` (`Skel/Mix.lean`): a comment after a value is part of the value here, unlike in the parameter files of the other programs; a switch with a comment is refused.
* **C23** `c235_all_violated` (`Train/Count.lean`): of 671089 samples, only 671088 are used for training when 100 % are requested (number of samples times 100 is rounded to the even float below).
* **C23** `c235_empty_violated` (`Train/Count.lean`): with too few samples for the percentage, there is no training sample, and the program reads outside of an empty array instead of reporting it.
* **C23** `c236_training_violated` (`Train/Weights.lean`): the weights are those of all samples, not of the training samples. If the samples are sorted by class and the first half of them is used for training, the model gets two weights for one class.
* **C23** `c236_negative_violated` (`Train/Weights.lean`): weights outside of the range from zero to one are accepted; any word that is not a number counts as zero.
* **C24** `c246_none_violated` (`Gas/Map.lean`): if there is no estimate at all, every pixel gets water vapour 0, without the fill flag.
* **C24** `c246_tiny_violated` (`Gas/Map.lean`): a valid pixel whose block has an estimate of at most 0.0005 cm does not get it, but the mean of all estimates and the fill flag: the estimate is truncated to 0, which counts as no estimate (gas-ll.c:399, 433).
* **C24** `c246_corner_violated` (`Gas/Map.lean`): if the upper left pixel of a block has no data, there is an image with the same flags and the same values in all pixels with data, for which the search gets another reflectance of the water vapour band.
* **C24** `c247_threads_violated` (`Gas/Map.lean`): the search of a block starts from the result of the block before, of the same thread. If the search from there ends elsewhere than from the default, then the same image (here two blocks below each other) has different water vapour with one thread and with two.
* **C24** `c249_corner_violated` (`Gas/Map.lean`): if the upper left pixel of a block has no data, all pixels of the block get the transmittance of an atmosphere without water vapour, whatever their own water vapour is.
* **C24** `c248_exact_violated` (`Gas/Table.lean`): water vapour of exactly 0.29 cm is treated as 0.28 cm.
* **C24** `c24_sequential_violated` (`Pipeline/Props.lean`): C24 is violated without streaming: the byte counters are overwritten by each unit, so if the last tile is empty the program reports missing input although data were read and written.
* **C24** `c241_crash_violated` (`Share/Live.lean`): the provenance is written after the image has been unlocked. A process that is stopped in between (killed, or it cannot lock the provenance file in time) leaves a complete image that is not recorded anywhere, whatever happens later.
* **C24** `c241_order_violated` (`Share/Live.lean`): the order of the lines is not the order in which the images have been written. With two processes that write the same file it is possible that both come to their end and the provenance lists the update of the file before its creation.
* **C24** `c242_stale_violated` (`Share/Live.lean`): a process that stops while it holds the lock of a path blocks this path for ever: the path keeps its (incomplete) content and its lock, and no process ever completes a write to it.
* **C24** `c242_lost_violated` (`Share/Table.lean`): an image that was complete can get lost. Whenever a process updates an image, there is a moment at which its end (killed, disk full) leaves a file that is no image any more, and that no other process can write again.
* **C25** `c259_empty_violated` (`Avec/Props.lean`): a part of the growing season without any step has the average 0/0, whose day is undefined.
* **C25** `c25_other_types_violated` (`Brick/Props.lean`): C25 does not hold for the other data types: cropping by at least one pixel writes outside of the new image, whatever the size of the image.
* **C25** `c257_first_violated` (`Pac/Props.lean`): if the first feature has no plausible date in any year (a pixel without phenology), the targets are computed from variables that have no value.
* **C25** `c257_stale_violated` (`Pac/Props.lean`): if a later feature has no plausible date in any year, its targets are on the line of the feature before it, which is about another phenological event.
* **C26** `c260_empty_violated` (`Avec/Adapt.lean`): if one of the seasons has no step (the series begins too late for the regular seasons, C65), the average is 0/0 and the starts of the seasons are undefined.
* **C26** `c26_stale_violated` (`Brick/Props.lean`): C26 does not hold if chunk (0,0) is skipped: the pixels of every chunk that is not written keep the content of the file that existed before.
* **C26** `c261_cut_violated` (`Input/Props.lean`): a pixel of the mask file that holds 257, 513, -255 or another number of the form 256k + 1 is taken for a 1, although only 1 selects a pixel, because the number is cut to 8 bits before.
* **C26** `c264_classes_violated` (`Naming/Limits.lean`): the class probabilities of all classes of a model set get the same name, that of the first model. If they are written to single files, they are written to the same file.
* **C26** `c264_fields_violated` (`Naming/Limits.lean`): fields whose names differ only after the first dot, like `LSP.2018.tif` and `LSP.2019.tif`, are written to the same file.
* **C26** `c264_features_violated` (`Naming/Limits.lean`): the same with features in texture and landscape metrics, if the bands are written to single files.
* **C26** `c264_statistic_violated` (`Naming/Limits.lean`): if a statistic of the clear-sky observations is requested twice, the name of one of the products is not set.
* **C26** `c264_number_violated` (`Naming/Limits.lean`): if the first statistic is requested twice and the number of observations is not requested, the product is called like the number of observations.
* **C26** `c265_improphe_violated` (`Naming/Limits.lean`): Level 2 ImproPhe does not know sub-folders; its files are in the folder of the tile.
* **C26** `c266_composite_violated` (`Naming/Limits.lean`): the composite itself and its preview are one file each, also with `OUTPUT_EXPLODE`.
* **C27** `c27_merge_lost_violated` (`Brick/Props.lean`): C27 does not hold for values below nodata: for every nodata value there are two valid values whose merge is nodata.
* **C27** `c272_stale_violated` (`Match/Ties.lean`): the start position is kept from the point before if no position around a point correlates positively. For every image size and any two distinct points 13 pixels away from the border there are correlations such that the second point is matched with the position of the first, however far it is away: the match lies within one pixel of the first point. (The correlations and the fit are free here; they are not traced back to images.)
* **C27** `c276_cloudy_violated` (`Modis/Props.lean`): every cloudy pixel whose state word also says that it is next to a cloud gets the state of a cloud buffer only, so that it passes if only opaque clouds and cirrus are screened.
* **C27** `c277_fill_violated` (`Modis/Props.lean`): a fill value in another band stays in the image. For Aqua, a fill value in band 5 (SWIR1, for which Aqua has broken detectors) leaves no trace in the quality bits either: the pixel is flagged neither as nodata nor as below zero.
* **C27** `c278_saturated_violated` (`Modis/Props.lean`): a saturated band is not flagged if an earlier band is slightly below zero: checking the bands stops at the first value out of range.
* **C27** `c279_leap_violated` (`Modis/Props.lean`): in leap years, each image from February 29 on is filed under the date of the next day; the image of December 31 gets December 32.
* **C27** `c270_lock_violated` (`Watch/Units.lean`): a run reports success although products are missing. If the directory of a unit cannot be locked, none of its products is written. Nevertheless the exit code is SUCCESS as soon as something was read and another unit has counted bytes, even if the user asked to fail on empty output.
* **C27** `c270_write_violated` (`Watch/Units.lean`): the result of writing a product is not looked at, and its bytes are counted in any case. Even if no product at all can be written (disk full), the exit code is SUCCESS.
* **C28** `c285_format_violated` (`Args/Props.lean`): whatever the command line, no sample is written in another format: `-f` is only accepted together with `-o`, but `-o` is not noticed.
* **C28** `c287_edge_violated` (`Args/Props.lean`): for each tile right of the origin, a point on its left edge is reported in the tile to the left, in the column after the last one of that tile.
* **C28** `c288_sizes_violated` (`Args/Props.lean`): with three or more numbers for the tile size, an element behind the array is read.
* **C28** `c28_lock_leak_violated` (`Brick/Props.lean`): C28 does not hold: any of the operations that can fail while the output file is locked leaves the lock behind.
* **C28** `c282_gap_violated` (`Dem/Props.lean`): for 30 m images (Landsat) and the cells of 5000 m, two of 500 rows are not counted in any cell: whatever the elevations in these rows are, no cell changes.
* **C29** `c294_exact_violated` (`Find/Props.lean`): if directory, slash and name have exactly as many characters as the buffer, the failure leaves the name without its last character in the buffer (not the empty name), and the directory open.
* **C29** `c294_leak_violated` (`Find/Props.lean`): a search for a file by the start of its name leaves the directory open whenever there is no such file.
* **C29** `c296_aux_violated` (`Find/Scene.lean`): a file with the name of an image and something behind it, such as the `.aux.xml` that other programs write beside an image, is used instead of the image if the folder lists it first.
* **C29** `c298_stale_violated` (`Label/Props.lean`): a name whose first word has eight characters that do not start with a year, such as `seasonal_mean`, gets the date of the band before it, and if it is the first band, whatever was in memory.
* **C29** `c298_empty_violated` (`Label/Props.lean`): a name that is empty or consists of separators makes the program read a null pointer.
* **C29** `c298_released_violated` (`Label/Props.lean`): in Python, the text of every name is read only after the object that holds it has been released.
* **C29** `c291_vector_violated` (`Plog/Props.lean`): as soon as a parameter has two or more values, the log is undefined, whatever the values are: the blank between them is not terminated.
* **C29** `c291_cut_violated` (`Plog/Props.lean`): a text of 16384 or more characters is cut without a message if the limit lies in the last value.
* **C29** `c292_zero_violated` (`Poi/Props.lean`): the row before the lower border, and the column before the right border, are always zero, whatever the image is.
* **C29** `c292_corner_violated` (`Poi/Props.lean`): in the lower right corner, as high and wide as half of the filter, the result does not depend on the pixels there: two images that differ only in their last rows and columns have the same corner.
* **C30** `c309_incomplete_violated` (`Equi/Flush.lean`): if one of the products cannot be written, the program fails, but the products before it stay on disc without the others.
* **C30** `c309_continents_violated` (`Equi/Flush.lean`): the images of a scene that covers two continents have the same name. If their sizes differ, the program fails at the second continent, and only the image of the first one is there.
* **C30** `c309_mixed_violated` (`Equi/Flush.lean`): if the sizes are equal, the pixels of two continents in two projections are combined into one image.
* **C30** `c306_glance_violated` (`Equi/Props.lean`): with GLANCE7 and the code of a continent no datacube is started at all, as the names are compared with a table without the 7: nothing is written, and the program succeeds.
* **C30** `c308_killed_violated` (`Equi/Props.lean`): if the program is killed while it writes the dictionary, the part that was written stays: every later run takes it for the dictionary, and succeeds.
* **C30** `c308_denied_violated` (`Equi/Props.lean`): if there is no dictionary and it cannot be created, or its name is too long, the datacube is freed, and used afterwards.
* **C30** `c301_interrupted_violated` (`Fetch/Props.lean`): if the first transfer is interrupted (it returns an error) after some of the blocks, these are taken for the file: there is no further transfer in this run, and none in any later run, even if the server would deliver the whole file from the second transfer on. The error is printed only.
* **C30** `c301_killed_violated` (`Fetch/Props.lean`): a program killed in a transfer leaves the blocks received so far, and all later runs keep them as the file.
* **C30** `c301_stuck_violated` (`Fetch/Props.lean`): a truncated file that cannot be opened ends the program, leaves everything as it is, and therefore ends every later run that needs the granule, however the server behaves: it has to be removed by hand.
* **C30** `c304_newline_violated` (`Fetch/Props.lean`): if the line with the key ends with a newline, as lines do, then the newline is a part of the header, for all keys.
* **C30** `c304_unset_violated` (`Fetch/Props.lean`): without the environment variable and without a login (as in a container) there is a warning only: a file name that was never set is then read.
* **C30** `c300_range_violated` (`Pyr/Props.lean`): dense matching is meant to enlarge its windows as far as depth-first matching does on the same layer. But the product of the scales leaves out the top layer (it counts from the scale 1 of the finest one), so that the range is always smaller on the finest layer, for any number of layers and any range of at least three pixels.
* **C30** `c30_long_pattern_violated` (`Str/Props.lean`): C30 does not hold for long patterns: a pattern that is longer than text and replacement together cannot occur, but the length check wraps around and ends the program.
* **C31** `c318_2dc_violated` (`Own/Props.lean`): a contiguous array without rows cannot be freed: `free_2DC` reads beyond the array of pointers.
* **C31** `c318_twice_violated` (`Own/Props.lean`): the pointers to names are not reset: freeing a table with names twice frees the same memory twice.
* **C31** `c312_nan_violated` (`Side/Props.lean`): a field with the text `nan` is no value in [0, 10000], but passes both comparisons: if all other values are in the range and the number of rows is right, the file is accepted, and the endmember has no value in this band.
* **C32** `c32_contiguous_violated` (`Str/Props2.lean`): C32 does not hold for contiguous arrays whose row length changes: with shorter rows, the first element of the second row is afterwards an element of the former first row.
* **C33** `c33_dirname_violated` (`Str/Props2.lean`): C33 does not hold for paths with a trailing slash: the directory name is the path itself.
* **C35** `c35_nan_violated` (`Param/Props.lean`): C35 does not hold for NaN: a floating point parameter given as "nan" (any letter case, with or without sign) is read as NaN, and the check accepts it, whatever its range.
* **C37** `c37_overflow_violated` (`Stats/Props.lean`): C37 does not hold for samples with two values more than `INT_MAX` apart: the comparison overflows.
* **C38** `c38_long_gap_violated` (`Interp/Props.lean`): C38 does not hold for long gaps: between two observations with the same value, 1150 days apart, the interpolated value is smaller than both (for every rounding to nearest).
* **C40** `c40_cutoff_violated` (`Interp/Props.lean`): C40 does not hold if the weight of distance zero exceeds half of the cut-off parameter: the window weight is zero, and a valid observation at the date makes the result undefined.
* **C41** `c41_average_violated` (`Fold/Props.lean`): C41, C42 fail for the average: with `double` arithmetic of any rounding to nearest, six values with mean 4 have the folded average 3.
* **C41** `c41_range_violated` (`Fold/Props.lean`): C41 fails for the range: a range beyond 16 bits is stored modulo 2^16, as a negative number.
* **C41** `c41_std_single_violated` (`Fold/Props.lean`): C41 fails for the standard deviation of a single value, which is the conversion of NaN.
* **C41** `c41_constant_violated` (`Fold/Props.lean`): C41 fails for skewness and kurtosis of constant values, which are the conversion of NaN (0/0).
* **C42** `c42_order_violated` (`Fold/Stm.lean`): C42 fails for the average with `double` arithmetic: the same values in another order give another metric, for every rounding to nearest.
* **C42** `c42_duplicate_violated` (`Fold/Stm.lean`): C42 fails for a metric that is requested twice: the first of its layers does not hold the metric, it holds the number of valid values.
* **C42** `c42_std_single_violated` (`Fold/Stm.lean`): C42 fails for the standard deviation of a single valid value, which is the conversion of NaN.
* **C43** `c43_last_month_violated` (`Cso/Props.lean`): if the step divides the number of months between the first and the last month, the observations of the last month of the period are in no window.
* **C43** `c43_std_one_violated` (`Cso/Props.lean`): the standard deviation is computed with the number of observations instead of the number of gaps. With one observation in the window, this is a division by zero whose result is converted to an integer.
* **C43** `c43_std_violated` (`Cso/Props.lean`): with several observations the reported deviation is too large, unless all gaps are equal.
* **C43** `c43_skew_violated` (`Cso/Props.lean`): skewness and kurtosis of equal gaps (e.g. a single gap: an image on the first day of the window) are no numbers, their conversion is undefined.
* **C43** `c43_quantile_violated` (`Cso/Props.lean`): the quantiles are computed from as many gaps as there are observations: the last gap is missing. With one observation within the window each quantile is the first gap, whatever follows.
* **C43** `c43_quantile_stale_violated` (`Cso/Props.lean`): with several observations on one day there are fewer gaps than observations, and the quantiles use values of other windows or pixels: here three images on the first day of the window, and the smallest value (0% quantile).
* **C44** `c44_suffix_violated` (`L2queue/Props.lean`): if the path of an image is the end of the path of another image (`/a/x.zip` and `/mnt/a/x.zip`), the update for the first one overwrites the status of the other one.
* **C44** `c44_plus_violated` (`L2queue/Props.lean`): the status of an image whose path contains a plus sign is never updated.
* **C44** `c44_give_up_violated` (`L2queue/Props.lean`): `lockfile-create` gives up after some attempts and the script goes on without the lock: for every two images there is a schedule in which both workers finish and the status of the first one is still QUEUED.
* **C45** `c45_index_violated` (`Bap/Props.lean`): if there are admissible observations but none has a score above -1, arrays are accessed with index -1.
* **C45** `c45_water_violated` (`Bap/Props.lean`): a water pixel with SWIR2 reflectance of at least 2.0 (e.g. sun glint) and no lower NIR in each valid observation; the arrays are accessed with index -1.
* **C45** `c45_nan_violated` (`Bap/Props.lean`): with `DOY_SCORE = 0 …` (a bell-shaped scoring function that is 0 on the first target day), the year score of an observation of the target year before the central day is 0/0. If this is so for each valid observation, the arrays are accessed with index -1.
* **C46** `c46_projected_violated` (`Sample/Props.lean`): with projected coordinates no sample is ever extracted: the lower limit of the box of every chunk is above its upper limit.
* **C46** `c46_geographic_violated` (`Sample/Props.lean`): with geographic coordinates no sample is ever extracted either if the latitude is a strictly increasing function of the y coordinate.
* **C46** `c46_edge_violated` (`Sample/Props.lean`): a sample on the left edge of a tile right of the origin is not extracted from any chunk of any tile, whatever the box: it is assigned to the tile to the left, in a column behind its last one. `n`: number of chunk columns of a tile.
* **C47** `c47_same_resolution_violated` (`Brick/Props.lean`): C47 does not hold for all resolutions: with a resolution of 0.1 (as stored in double precision), row 43 converted to an image of the same resolution is row 42, with every way to break rounding ties.
* **C48** `c48_header_violated` (`Table/Props.lean`): a header with any number of names is accepted, whatever the number of cells in the rows.
* **C48** `c48_blank_violated` (`Table/Props.lean`): if the file begins with an empty line, the line with the names is counted as a row of data, which consists of zeros.
* **C48** `c48_minmax_violated` (`Table/Props.lean`): if all values exceed 32767 (as UTM coordinates or pixel counts do), the minimum is reported as 32767; if all are below -32768, the maximum is reported as -32768.
* **C49** `c49_leading_zero_violated` (`Str/Props2.lean`): C49 does not hold for numbers with a leading zero: their digits are read as an octal number, and the digits 8 and 9 are refused.
* **C50** `c50_single_day_violated` (`Season/Props.lean`): C50 does not hold for a season of one day: all days of the year are selected.
* **C52** `c52_slope_violated` (`Noise/Props.lean`): if the neighbours differ by less than the number of days between them, the integer division makes the slope 0; the residual is the difference to the left neighbour, whatever the trend.
* **C53** `c53_stale_violated` (`Bap/Props2.lean`): if the target of a pixel is corrupt (the phenology of the pixel is not known), its observation is used or not depending on the DOY score that the previous pixel of the thread had at the same date.
* **C54** `c54_degenerate_violated` (`Bap/Props2.lean`): if the last target day equals the central one (or its score is 0), the DOY score on the central day is not a number instead of the requested value.
* **C55** `c55_null_violated` (`Bap/Props2.lean`): if the reflectance product is not requested (e.g. only the scores are), the program writes to a null pointer.
* **C57** `c57_shape_violated` (`Bap/Props2.lean`): if the first and the last score are equal and the middle one is not higher, the parameters are accepted, but the scoring function is whatever was in the memory before.
* **C58** `c58_row_violated` (`Sample/Props.lean`): the y coordinate of every other row is wrong: rows go up instead of down.
* **C58** `c58_subset_row_violated` (`Sample/Props.lean`): if the active part of a Sentinel-2 image does not begin in the first row, the image is shifted to the north by twice the height of the rows that are left out.
* **C59** `c59_overflow_violated` (`Strat/Props.lean`): if more pixels of a class have been counted than could be stored (the column `count` of the table is too small for the image), thinning this class removes all its samples and then the first sample of the table, whatever its class.
* **C59** `c59_unlisted_violated` (`Strat/Props.lean`): a pixel whose class is not listed is pre-selected if its random number is 0.
* **C59** `c59_duplicate_violated` (`Strat/Props.lean`): a class that is listed twice is thinned twice: of `n` pre-selected pixels, twice the surplus is removed.
* **C60** `c60_constant_violated` (`Trend/Props.lean`): R² of a constant series is 0/0 (and undefined as an integer).
* **C60** `c60_percent_violated` (`Trend/Props.lean`): values that rise by more than 327.68 times their value at the start leave the range of the gain in percent, which is then undefined.
* **C60** `c60_days_mean_violated` (`Trend/Props.lean`): if a layer is nodata, the mean of values given in continuous days is wrong: here it is day 100 in each of three years, the fourth year is nodata, and the mean is -82.
* **C60** `c60_days_gain_violated` (`Trend/Props.lean`): if values given in continuous days rise by 32.768 days or more over the time series (for example one day per year over 33 years), the gain leaves its range and is undefined: it is 1000 times the number of days.
* **C61** `c61_penalty_violated` (`Trend/Change.lean`): with penalty, the size of the previous candidate is compared with the penalised size of the present one, so that a smaller lasting decrease (100, in 1991) wins against a greater lasting decrease (1000, in 1993).
* **C61** `c61_parts_violated` (`Trend/Change.lean`): the parts before and after the change do not make up the time series: the layer before the change belongs to neither (here: all layers are valid).
* **C61** `c61_days_violated` (`Trend/Change.lean`): for values given in continuous days the mean of the complete time series differs from that of the trend product: the year is not removed.
* **C62** `c62_constant_violated` (`Trend/Change.lean`): standardizing a constant series divides 0 by 0.
* **C62** `c62_nodata_violated` (`Trend/Change.lean`): a valid value may become nodata: here the first of two values that are 19998 apart.
* **C64** `c64_days_violated` (`Polar/Props.lean`): the conversion of days to radians in single precision and back loses a day for seven days of the year: 63, 121, 126, 237, 242, 247 and 252 become the day before.
* **C65** `c65_late_start_violated` (`Polar/Props.lean`): if the series begins more than one step (and a day) after the start of the phenological year in its first year, no season is ever found: all steps have season -1, and all metrics of all years are written as 0.
* **C66** `c66_peak_violated` (`Polar/Props.lean`): if the running total passes the start and the end of the growing season in one step, the season has values but no peak: date and value of the peak are written as 0.
* **C66** `c66_empty_violated` (`Polar/Props.lean`): a season whose values are all 0 (or that has no steps) is not nodata: all its dates are written as 0.
* **C67** `c67_rates_violated` (`Polar/Props.lean`): if the growing season has no steps before (after) its middle, the mean rising (falling) rate is 0/0, which is then converted to an integer.
* **C67** `c67_shift_violated` (`Polar/Props.lean`): without the adaptive start of the year, the shift of the start (DPV) is not 0 but minus the date of the start of the year.
* **C67** `c67_overflow_violated` (`Polar/Props.lean`): the rising and falling integrals of a season with values between 0 and 10000 need not fit 16 bits, so that the conversion is undefined.
* **C69** `c69_adjust_violated` (`Sensor/Props.lean`): with SPECTRAL_ADJUST the sensor SEN2A is appended to the list after the arrays for the band counts and names were allocated for the shorter list. For every valid combination of sensors the program writes and reads behind the end of both arrays.
* **C69** `c69_lowres_violated` (`Sensor/Props.lean`): the sensors of the low-resolution data of the Level 2 ImproPhe are configured without a target sensor (only the first group of sensors has the parameter TARGET_SENSOR). Such a configuration is never accepted, and a valid one reaches the use of a null pointer as file name.
* **C71** `c71_ndvire1n_violated` (`Sensor/IndexProps.lean`): NDVIre1n is defined in the shipped file, so it is accepted whenever its bands NIR and REDEDGE1 are available; computing it then ends the program because the implementation is called NDVIren. That name in turn has no definition.
* **C73** `c73_overflow_violated` (`Index/ResProps.lean`): whenever the formula gives a value out of the range of 16 bit integers, the behaviour is undefined: the value is converted without a check.
* **C73** `c73_evi_violated` (`Index/ResProps.lean`): this happens with ordinary reflectances, e.g. for EVI and a blue reflectance of 13 % to 27 % over dark red and the NIR reflectance given here (0.2 % to 99.9 %).
* **C74** `c74_overflow_violated` (`Index/LinProps.lean`): a tasseled cap index out of the range of 16 bit integers is converted without a check.
* **C76** `c76_nan_violated` (`Index/RatioProps.lean`): if the reflectances have different signs and the first is larger in magnitude, MSRre and MSRren are the square root of a negative number; this is not noticed and the conversion of the result is undefined.
* **C77** `c77_collision_violated` (`Index/SeriesProps.lean`): a valid value can be the nodata value -9999, after which the observation counts as missing; e.g. for EVI and these reflectances, all in 0 to 1, where the formula gives -0.99995.
* **C80** `c80_sum_violated` (`Unmix/Opt.lean`): with the sum-to-one option (and no other constraint) the fractions sum to one if and only if they are a fit of the bands alone, that is, if the option is without effect.
* **C81** `c81_endmember_violated` (`Unmix/Props.lean`): an endmember number outside the columns of the endmember file is not refused by the parameter parser and ends the program when the first pixel is processed.
* **C81** `c81_shaded_violated` (`Unmix/Props.lean`): shade normalization of a completely shaded pixel divides by zero and converts the result to an integer.
* **C81** `c81_overflow_violated` (`Unmix/Props.lean`): a normalized fraction that does not fit into 16 bit is converted without a check (the other fractions of a strongly shaded pixel need not be small if they do not sum to one).
* **C82** `c82_rmse_violated` (`Unmix/Props.lean`): with the sum-to-one option the number under the root is not the mean squared residual of the bands; the deviation of the sum from one counts as a band.
* **C82** `c82_masked_violated` (`Unmix/Props.lean`): the RMSE of a pixel outside the processing mask is zero instead of nodata.
* **C83** `c83_west_violated` (`Halo/Props.lean`): if there are several chunks side by side, the pixels west of a chunk are not those of the large image at that position: they are taken from the first chunk of the tile of the western neighbour, i.e. displaced by as many chunks as the western neighbour is away from the border of its tile. All chunks but the second of each tile are affected.
* **C84** `c84_rename_violated` (`Halo/Props.lean`): if the name of the tile occurs in the path earlier, e.g. as a directory of the datacube, that occurrence is replaced, and the file that is looked for is not the one of the neighbouring tile.
* **C86** `c86_corner_violated` (`Ccl/Props.lean`): the upper left pixel of the image is never part of an object, whatever the image; and a segment that includes it and has exactly the minimum size is removed, although the same segment elsewhere in the image is kept.
* **C87** `c87_allpx_violated` (`Lsm/Props.lean`): if the chunk has no patch, all metrics are nodata everywhere, also when metrics are requested for all pixels; in a chunk with a patch elsewhere, the same pixels get values (an empty kernel has 0 patches).
* **C89** `c89_max_violated` (`Lsm/Props.lean`): the largest value is searched from 0. If all values in the kernel are negative (a class of values below a negative threshold, say), MAX is 0, which no pixel of the class has.
* **C89** `c89_std_violated` (`Lsm/Props.lean`): if exactly one class pixel with a value is in the kernel, STD is the conversion of 0/0 to an integer, which is undefined.
* **C89** `c89_geo_violated` (`Lsm/Props.lean`): if no class pixel in the kernel has a positive value (with all pixels requested: if there is no class pixel in the kernel), GEO is the conversion of `exp(0/0)` to an integer, which is undefined.
* **C90** `c90_ems_violated` (`Lsm/Metrics.lean`): EMS is the squared total area of the class in the kernel, whatever the patches are. The effective mesh size is the sum of the squared areas of the patches, which is less as soon as there are two.
* **C90** `c90_fdi_filled_violated` (`Lsm/Metrics.lean`): if a patch of two or more pixels has no edge in the kernel (the class fills the kernel, for instance), the logarithm of 0 is taken and FDI is the conversion of an infinite number, which is undefined.
* **C90** `c90_fdi_single_violated` (`Lsm/Metrics.lean`): if all patches in the kernel have a single pixel there, and there is at least one, FDI is the conversion of 0/0, which is undefined.
* **C90** `c90_unit_violated` (`Lsm/Metrics.lean`): with an 11 x 11 kernel (radius 50 m at 10 m resolution), the area of a single pixel, rounded to single precision, times 121 is rounded to 1 - 2^-24 and not to 1. Patches with a single pixel are therefore not left out of FDI, and the logarithm in the denominator is about -6e-8: with one to three edges in the kernel the result is far beyond the range.
* **C90** `c90_identifier_violated` (`Lsm/Stripes.lean`): UCI is stored in 16 bits, and a chunk can have more patches. With 65537 patches or more, two patches have the same UCI (and identifiers from 32768 on are negative: 55537 becomes -9999, the nodata value).
* **C92** `c92_single_violated` (`Ml/Props.lean`): with a single model in a set, its uncertainty is the conversion of 0/0 to an integer, which is undefined.
* **C93** `c93_tie_violated` (`Ml/Prob.lean`): if two classes share the largest probability, the margin is not 0 but the distance to the next smaller probability: it is positive.
* **C93** `c93_unanimous_violated` (`Ml/Prob.lean`): if all votes (3 trees) are for one class, its probability is 9999 instead of 10000.
* **C93** `c93_classes_violated` (`Ml/Prob.lean`): if a model of a set knows fewer classes than the last model of the set, votes are read outside of its matrix.
* **C93** `c93_columns_violated` (`Ml/Prob.lean`): the votes are added by position, also if the models of a set have different classes there. If one model only knows class `x` and the other only class `y`, the only probability that is written is (up to rounding) 100%, although `x` has `a` of `a + b` votes and `y` has `b`.
* **C94** `c94_far_violated` (`Lib/Props.lean`): a library whose smallest difference is 32767 or more (rescaled: 32.767 standard deviations) gets nodata instead of a large number.
* **C94** `c94_constant_violated` (`Lib/Props.lean`): if the features are rescaled and one valid feature has the same value in all rows of the library (or the library has one row), the library gets nodata at every pixel, even if the pixel equals a row.
* **C95** `c95_masked_violated` (`Ovv/Props.lean`): a masked pixel is 0 in every band (composite, information and scores), which is a valid value, and not nodata.
* **C96** `c96_ratio_violated` (`Ovv/Props.lean`): if the ratio is 1.01 or more and VH is negative (VV weaker than VH), the number that is converted to a byte is larger than 255, which is undefined: the code tests VH instead of the ratio against 1.
* **C96** `c96_zero_violated` (`Ovv/Props.lean`): if VH is 0 and VV is not negative, infinity or not a number is converted to a byte. Masked pixels are 0 in both bands (C95).
* **C96** `c96_chunks_violated` (`Ovv/Props.lean`): if the height of the chunks is not a multiple of the resolution of the overview, the overviews of the chunks have fewer rows than the overview of the tile has below each other: some remain empty.
* **C97** `c97_seasons_violated` (`Imp/Season.lean`): if a season goes over the turn of the year and one year is asked for, acquisitions from the season that starts in the year before and from the season that ends in the year after are averaged: they are more than one year apart and belong to two different seasons.
* **C99** `c99_mask_violated` (`Imp/Drive.lean`): without fine resolution data in the whole chunk, the coarse data are copied even for the pixels that are excluded by the processing mask.
* **C99** `c99_band_violated` (`Imp/Drive.lean`): if one band of a valid pixel is nodata, all bands of the product are zero there (neither nodata nor the data).

### Further limits

Behaviour that the models show but that is outside the statements of the properties:

* Merging two pixels takes the lower illumination class; a merged average may equal the nodata value.
* `date_from_string` accepts texts whose fields are not numbers (they count as 0).
* The size of a queue and its coordinates are not checked: size 0 is undefined, coordinates are 16-bit.
* The datacube definition cuts the projection text at a blank in the old format and prints coordinates with six decimals.
* The lock of the datacube definition and of output files is not released on all error paths.
* `majorfill_` and the midpoint circle of `buffer_` start with non-standard parameters; results depend on the row order.
* Values computed from valid observations may equal the nodata value (folding, spectral temporal metrics,
  standardization), they are then treated as missing.
* Table headers are not checked against the number of columns; column statistics start at the limits of `short`.
