import Verif.Param.Model

/-!
# Skeletons of parameter files and registered parameters

The entries of the skeletons that `force-parameter` writes (src/modules/aux-level/param-aux.c), the parameters that the
programs register (param-ll.c, param-hl.c, param-train-aux.c) and the tables of the enumerations (enum-cl.c). The tables are
extracted from the sources by a script. Comments and headings of the skeletons are not listed here: all of them begin
with `#`.
-/

namespace Verif.Skel

open Verif.Param (CharTest)

/-- A line `KEY = value` of a skeleton; `sep` is what is between. -/
structure Entry where
  key : String
  sep : String
  value : String

/-- Type and range of a registered parameter, as given to `register_*_par` (param-cl.c:317-795). -/
inductive RKind where
  | int (lo hi : Int)
  | enum (tags : List (String × Int))
  | float (lo hi : ℚ)
  | double (lo hi : ℚ)
  | date (lo hi : String)
  | char (test : CharTest)

/-- A registered parameter; `vec`: `register_*vec_par`, `expected` its expected length. -/
structure Reg where
  name : String
  kind : RKind
  vec : Bool
  expected : Int

/-! ## Enumerations -/

/-- param-cl.c:440-466, `register_bool_par`. -/
def bool : List (String × Int) := [("FALSE", 0), ("TRUE", 1)]

/-- enum-cl.c:31-32. -/
def tagsResample : List (String × Int) := [
  ("NN", 0), ("BL", 1), ("CC", 2)]

/-- enum-cl.c:34-36. -/
def tagsResMerge : List (String × Int) := [
  ("NONE", 0), ("REGRESSION", 1), ("IMPROPHE", 2), ("STARFM", 3)]

/-- enum-cl.c:38-41. -/
def tagsFmt : List (String × Int) := [
  ("ENVI", 0), ("GTiff", 1), ("COG", 2), ("JPEG", 3), ("CUSTOM", 4)]

/-- enum-cl.c:43-52. -/
def tagsQai : List (String × Int) := [
  ("NODATA", 0), ("CLOUD_OPAQUE", 1), ("CLOUD_BUFFER", 2), ("CLOUD_CIRRUS", 3), ("CLOUD_SHADOW", 4), ("SNOW", 5),
  ("WATER", 6), ("AOD_FILL", 7), ("AOD_HIGH", 8), ("AOD_INT", 9), ("SUBZERO", 10), ("SATURATION", 11),
  ("SUN_LOW", 12), ("ILLUMIN_NONE", 13), ("ILLUMIN_POOR", 14), ("ILLUMIN_LOW", 15), ("SLOPED", 16), ("WVP_NONE", 17)]

/-- enum-cl.c:54-57. -/
def tagsInt : List (String × Int) := [
  ("NONE", 0), ("LINEAR", 1), ("MOVING", 2), ("RBF", 3), ("HARMONIC", 4)]

/-- enum-cl.c:59-86. -/
def tagsSta : List (String × Int) := [
  ("MIN", 0), ("MAX", 1), ("RNG", 2), ("IQR", 3), ("AVG", 4), ("STD", 5), ("SKW", 6), ("KRT", 7), ("Q01", 8),
  ("Q02", 9), ("Q03", 10), ("Q04", 11), ("Q05", 12), ("Q06", 13), ("Q07", 14), ("Q08", 15), ("Q09", 16), ("Q10", 17),
  ("Q11", 18), ("Q12", 19), ("Q13", 20), ("Q14", 21), ("Q15", 22), ("Q16", 23), ("Q17", 24), ("Q18", 25),
  ("Q19", 26), ("Q20", 27), ("Q21", 28), ("Q22", 29), ("Q23", 30), ("Q24", 31), ("Q25", 32), ("Q26", 33),
  ("Q27", 34), ("Q28", 35), ("Q29", 36), ("Q30", 37), ("Q31", 38), ("Q32", 39), ("Q33", 40), ("Q34", 41),
  ("Q35", 42), ("Q36", 43), ("Q37", 44), ("Q38", 45), ("Q39", 46), ("Q40", 47), ("Q41", 48), ("Q42", 49),
  ("Q43", 50), ("Q44", 51), ("Q45", 52), ("Q46", 53), ("Q47", 54), ("Q48", 55), ("Q49", 56), ("Q50", 57),
  ("Q51", 58), ("Q52", 59), ("Q53", 60), ("Q54", 61), ("Q55", 62), ("Q56", 63), ("Q57", 64), ("Q58", 65),
  ("Q59", 66), ("Q60", 67), ("Q61", 68), ("Q62", 69), ("Q63", 70), ("Q64", 71), ("Q65", 72), ("Q66", 73),
  ("Q67", 74), ("Q68", 75), ("Q69", 76), ("Q70", 77), ("Q71", 78), ("Q72", 79), ("Q73", 80), ("Q74", 81),
  ("Q75", 82), ("Q76", 83), ("Q77", 84), ("Q78", 85), ("Q79", 86), ("Q80", 87), ("Q81", 88), ("Q82", 89),
  ("Q83", 90), ("Q84", 91), ("Q85", 92), ("Q86", 93), ("Q87", 94), ("Q88", 95), ("Q89", 96), ("Q90", 97),
  ("Q91", 98), ("Q92", 99), ("Q93", 100), ("Q94", 101), ("Q95", 102), ("Q96", 103), ("Q97", 104), ("Q98", 105),
  ("Q99", 106), ("NUM", 107)]

/-- enum-cl.c:100-113. -/
def tagsPol : List (String × Int) := [
  ("DEM", 0), ("DLM", 1), ("DPS", 2), ("DSS", 3), ("DMS", 4), ("DES", 5), ("DEV", 6), ("DAV", 7), ("DLV", 8),
  ("LTS", 9), ("LGS", 10), ("LGV", 11), ("VEM", 12), ("VLM", 13), ("VPS", 14), ("VSS", 15), ("VMS", 16), ("VES", 17),
  ("VEV", 18), ("VAV", 19), ("VLV", 20), ("VBL", 21), ("VGA", 22), ("VSA", 23), ("VPA", 24), ("VGM", 25),
  ("VGV", 26), ("DPY", 27), ("DPV", 28), ("IST", 29), ("IBL", 30), ("IBT", 31), ("IGS", 32), ("IRR", 33),
  ("IFR", 34), ("RAR", 35), ("RAF", 36), ("RMR", 37), ("RMF", 38)]

/-- enum-cl.c:115-116. -/
def tagsTail : List (String × Int) := [
  ("LEFT", 0), ("TWO", 1), ("RIGHT", 2)]

/-- enum-cl.c:146-147. -/
def tagsStd : List (String × Int) := [
  ("NONE", 0), ("NORMALIZE", 1), ("CENTER", 2)]

/-- enum-cl.c:149-150. -/
def tagsMl : List (String × Int) := [
  ("SVR", 0), ("SVC", 1), ("RFR", 2), ("RFC", 3)]

/-- enum-cl.c:152-154. -/
def tagsTxt : List (String × Int) := [
  ("ERO", 0), ("DIL", 1), ("OPN", 2), ("CLS", 3), ("GRD", 4), ("THT", 5), ("BHT", 6)]

/-- enum-cl.c:156-158. -/
def tagsQuery : List (String × Int) := [
  ("EQ", 0), ("GT", 1), ("GE", 2), ("LT", 3), ("LE", 4)]

/-- enum-cl.c:160-164. -/
def tagsLsm : List (String × Int) := [
  ("MPA", 0), ("UCI", 1), ("FDI", 2), ("EDD", 3), ("NBR", 4), ("EMS", 5), ("AVG", 6), ("STD", 7), ("GEO", 8),
  ("MAX", 9), ("ARE", 10)]

/-- enum-cl.c:166-167. -/
def tagsKernel : List (String × Int) := [
  ("SQUARE", 0), ("CIRCLE", 1)]

/-- enum-cl.c:178-179. -/
def tagsScrComb : List (String × Int) := [
  ("ADDITIVE", 0), ("MULTIPLICATIVE", 1)]

/-- enum-cl.c:184-185. -/
def tagsUdf : List (String × Int) := [
  ("PIXEL", 0), ("CHUNK", 1)]

/-! ## Registered parameters -/

/-- param-ll.c:41-104 `register_lower`. -/
def regLower : List Reg := [
  ⟨"DIR_LEVEL2", .char .exist, false, 0⟩, ⟨"DIR_TEMP", .char .exist, false, 0⟩, ⟨"DIR_LOG", .char .exist, false, 0⟩,
  ⟨"DIR_PROVENANCE", .char .exist, false, 0⟩, ⟨"FILE_AOI", .char .nullOrExist, false, 0⟩,
  ⟨"FILE_QUEUE", .char .nullOrExist, false, 0⟩, ⟨"DIR_WVPLUT", .char .nullOrExist, false, 0⟩,
  ⟨"DIR_AOD", .char .nullOrExist, false, 0⟩, ⟨"FILE_TILE", .char .nullOrExist, false, 0⟩,
  ⟨"FILE_DEM", .char .nullOrExist, false, 0⟩, ⟨"DIR_COREG_BASE", .char .nullOrExist, false, 0⟩,
  ⟨"TILE_SIZE", .double 0 2147483647, true, 2⟩, ⟨"RESOLUTION_LANDSAT", .double 0 2147483647, false, 0⟩,
  ⟨"RESOLUTION_SENTINEL2", .double 0 2147483647, false, 0⟩, ⟨"DO_REPROJ", .enum bool, false, 0⟩,
  ⟨"DO_TILE", .enum bool, false, 0⟩, ⟨"ORIGIN_LAT", .double (-90) 90, false, 0⟩,
  ⟨"ORIGIN_LON", .double (-180) 180, false, 0⟩, ⟨"PROJECTION", .char .none, true, (-1)⟩,
  ⟨"RESAMPLING", .enum tagsResample, false, 0⟩, ⟨"RES_MERGE", .enum tagsResMerge, false, 0⟩,
  ⟨"TIER", .int 1 3, false, 0⟩, ⟨"DO_TOPO", .enum bool, false, 0⟩, ⟨"DO_ATMO", .enum bool, false, 0⟩,
  ⟨"DO_AOD", .enum bool, false, 0⟩, ⟨"DO_BRDF", .enum bool, false, 0⟩, ⟨"MULTI_SCATTERING", .enum bool, false, 0⟩,
  ⟨"ADJACENCY_EFFECT", .enum bool, false, 0⟩, ⟨"WATER_VAPOR", .float 0 15, false, 0⟩,
  ⟨"STRICT_WATER_VAPOR", .enum bool, false, 0⟩, ⟨"IMPULSE_NOISE", .enum bool, false, 0⟩,
  ⟨"BUFFER_NODATA", .enum bool, false, 0⟩, ⟨"USE_DEM_DATABASE", .enum bool, false, 0⟩,
  ⟨"DEM_NODATA", .int (-32768) 32767, false, 0⟩, ⟨"DEM_RESAMPLING", .enum tagsResample, false, 0⟩,
  ⟨"COREG_BASE_NODATA", .int (-32768) 32767, false, 0⟩, ⟨"ERASE_CLOUDS", .enum bool, false, 0⟩,
  ⟨"MAX_CLOUD_COVER_FRAME", .float 1 100, false, 0⟩, ⟨"MAX_CLOUD_COVER_TILE", .float 1 100, false, 0⟩,
  ⟨"CLOUD_BUFFER", .float 0 10000, false, 0⟩, ⟨"CIRRUS_BUFFER", .float 0 10000, false, 0⟩,
  ⟨"SHADOW_BUFFER", .float 0 10000, false, 0⟩, ⟨"SNOW_BUFFER", .float 0 10000, false, 0⟩,
  ⟨"CLOUD_THRESHOLD", .float 0 1, false, 0⟩, ⟨"SHADOW_THRESHOLD", .float 0 1, false, 0⟩,
  ⟨"NPROC", .int 1 2147483647, false, 0⟩, ⟨"NTHREAD", .int 1 2147483647, false, 0⟩,
  ⟨"PARALLEL_READS", .enum bool, false, 0⟩, ⟨"DELAY", .int 0 2147483647, false, 0⟩,
  ⟨"TIMEOUT_ZIP", .int 0 2147483647, false, 0⟩, ⟨"FILE_OUTPUT_OPTIONS", .char .nullOrExist, false, 0⟩,
  ⟨"OUTPUT_FORMAT", .enum tagsFmt, false, 0⟩, ⟨"OUTPUT_DST", .enum bool, false, 0⟩,
  ⟨"OUTPUT_AOD", .enum bool, false, 0⟩, ⟨"OUTPUT_WVP", .enum bool, false, 0⟩, ⟨"OUTPUT_VZN", .enum bool, false, 0⟩,
  ⟨"OUTPUT_HOT", .enum bool, false, 0⟩, ⟨"OUTPUT_OVV", .enum bool, false, 0⟩]

/-- param-hl.c:64-90 `register_higher`. -/
def regHigher : List Reg := [
  ⟨"DIR_LOWER", .char .exist, false, 0⟩, ⟨"DIR_HIGHER", .char .exist, false, 0⟩,
  ⟨"DIR_PROVENANCE", .char .exist, false, 0⟩, ⟨"DIR_MASK", .char .nullOrExist, false, 0⟩,
  ⟨"BASE_MASK", .char .nullOrBase, false, 0⟩, ⟨"FILE_TILE", .char .nullOrExist, false, 0⟩,
  ⟨"X_TILE_RANGE", .int (-999) 9999, true, 2⟩, ⟨"Y_TILE_RANGE", .int (-999) 9999, true, 2⟩,
  ⟨"RESOLUTION", .double 0 340282346638528859811704183484516925440, false, 0⟩,
  ⟨"CHUNK_SIZE", .double 0 340282346638528859811704183484516925440, true, 2⟩,
  ⟨"FILE_OUTPUT_OPTIONS", .char .nullOrExist, false, 0⟩, ⟨"OUTPUT_FORMAT", .enum tagsFmt, false, 0⟩,
  ⟨"OUTPUT_EXPLODE", .enum bool, false, 0⟩, ⟨"OUTPUT_SUBFOLDERS", .enum bool, false, 0⟩,
  ⟨"FAIL_IF_EMPTY", .enum bool, false, 0⟩, ⟨"NTHREAD_READ", .int 1 2147483647, false, 0⟩,
  ⟨"NTHREAD_WRITE", .int 1 2147483647, false, 0⟩, ⟨"NTHREAD_COMPUTE", .int 1 2147483647, false, 0⟩,
  ⟨"STREAMING", .enum bool, false, 0⟩, ⟨"PRETTY_PROGRESS", .enum bool, false, 0⟩]

/-- param-hl.c:98-112 `register_ard1`. -/
def regArd1 : List Reg := [
  ⟨"SENSORS", .char .none, true, (-1)⟩, ⟨"TARGET_SENSOR", .char .none, false, 0⟩,
  ⟨"PRODUCT_TYPE_MAIN", .char .none, false, 0⟩, ⟨"PRODUCT_TYPE_QUALITY", .char .none, false, 0⟩,
  ⟨"SPECTRAL_ADJUST", .enum bool, false, 0⟩, ⟨"SCREEN_QAI", .enum tagsQai, true, (-1)⟩,
  ⟨"DATE_RANGE", .date "1900-01-01" "2099-12-31", true, 2⟩, ⟨"DOY_RANGE", .int 1 365, true, 2⟩,
  ⟨"DATE_IGNORE_LANDSAT_7", .date "1900-01-01" "2099-12-31", false, 0⟩]

/-- param-hl.c:121-130 `register_ard2`. -/
def regArd2 : List Reg := [
  ⟨"REDUCE_PSF", .enum bool, false, 0⟩, ⟨"USE_L2_IMPROPHE", .enum bool, false, 0⟩,
  ⟨"ABOVE_NOISE", .float 0 340282346638528859811704183484516925440, false, 0⟩,
  ⟨"BELOW_NOISE", .float 0 340282346638528859811704183484516925440, false, 0⟩]

/-- param-hl.c:370-381 `register_ftr`; `n`: number of lines with INPUT_FEATURE. -/
def regFtr (n : Nat) : List Reg :=
  List.replicate n ⟨"INPUT_FEATURE", .char .none, true, (-1)⟩ ++
  [⟨"FEATURE_NODATA", .int (-32768) 32767, false, 0⟩, ⟨"FEATURE_EXCLUDE", .enum bool, false, 0⟩]

/-- param-hl.c:138-182 `register_bap`. -/
def regBap : List Reg := [
  ⟨"YEAR_TARGET", .int 1900 2100, false, 0⟩, ⟨"YEAR_NUM", .int 0 100, false, 0⟩,
  ⟨"Y_FACTOR", .float 0 340282346638528859811704183484516925440, false, 0⟩, ⟨"SELECT", .enum bool, false, 0⟩,
  ⟨"COMBINE_SCORES", .enum tagsScrComb, false, 0⟩, ⟨"REQUIRE_AUX_PRODUCTS", .char .none, true, (-1)⟩,
  ⟨"DOY_SCORE", .float 0 1, true, 3⟩, ⟨"DOY_STATIC", .int 1 365, true, 3⟩, ⟨"OFF_SEASON", .enum bool, false, 0⟩,
  ⟨"USE_CLOUDY", .enum bool, false, 0⟩, ⟨"USE_HAZY", .enum bool, false, 0⟩,
  ⟨"DREQ", .float 1 340282346638528859811704183484516925440, false, 0⟩, ⟨"HREQ", .float (-600) 600, false, 0⟩,
  ⟨"VREQ", .float 1 90, false, 0⟩, ⟨"OUTPUT_BAP", .enum bool, false, 0⟩, ⟨"OUTPUT_INF", .enum bool, false, 0⟩,
  ⟨"OUTPUT_SCR", .enum bool, false, 0⟩, ⟨"OUTPUT_OVV", .enum bool, false, 0⟩,
  ⟨"SCORE_DOY_WEIGHT", .double 0 1, false, 0⟩, ⟨"SCORE_YEAR_WEIGHT", .double 0 1, false, 0⟩,
  ⟨"SCORE_CLOUD_WEIGHT", .double 0 1, false, 0⟩, ⟨"SCORE_HAZE_WEIGHT", .double 0 1, false, 0⟩,
  ⟨"SCORE_CORREL_WEIGHT", .double 0 1, false, 0⟩, ⟨"SCORE_VZEN_WEIGHT", .double 0 1, false, 0⟩,
  ⟨"DIR_LSP", .char .nullOrExist, false, 0⟩, ⟨"BASE_LSP", .char .nullOrBase, true, 3⟩,
  ⟨"LSP_NODATA", .int (-32768) 32767, false, 0⟩, ⟨"LSP_DO", .enum bool, false, 0⟩,
  ⟨"LSP_1ST_YEAR", .int 1900 2100, false, 0⟩, ⟨"LSP_START", .int 1 766500, false, 0⟩,
  ⟨"LSP_THRESHOLD", .float 0 365, false, 0⟩]

/-- param-hl.c:190-270 `register_tsa`. -/
def regTsa : List Reg := [
  ⟨"INDEX", .char .none, true, (-1)⟩, ⟨"STANDARDIZE_TSS", .enum tagsStd, false, 0⟩,
  ⟨"OUTPUT_TSS", .enum bool, false, 0⟩, ⟨"FILE_ENDMEM", .char .nullOrExist, false, 0⟩,
  ⟨"SMA_SUM_TO_ONE", .enum bool, false, 0⟩, ⟨"SMA_NON_NEG", .enum bool, false, 0⟩,
  ⟨"SMA_SHD_NORM", .enum bool, false, 0⟩, ⟨"SMA_ENDMEMBER", .int 0 2147483647, false, 0⟩,
  ⟨"OUTPUT_RMS", .enum bool, false, 0⟩, ⟨"INTERPOLATE", .enum tagsInt, false, 0⟩,
  ⟨"MOVING_MAX", .int 1 365, false, 0⟩, ⟨"RBF_SIGMA", .int 1 365, true, (-1)⟩, ⟨"RBF_CUTOFF", .float 0 1, false, 0⟩,
  ⟨"HARMONIC_MODES", .int 1 3, false, 0⟩, ⟨"HARMONIC_TREND", .enum bool, false, 0⟩,
  ⟨"HARMONIC_FIT_RANGE", .date "1900-01-01" "2099-12-31", true, 2⟩, ⟨"INT_DAY", .int 1 2147483647, false, 0⟩,
  ⟨"STANDARDIZE_TSI", .enum tagsStd, false, 0⟩, ⟨"OUTPUT_TSI", .enum bool, false, 0⟩,
  ⟨"OUTPUT_NRT", .enum bool, false, 0⟩, ⟨"STM", .enum tagsSta, true, (-1)⟩, ⟨"OUTPUT_STM", .enum bool, false, 0⟩,
  ⟨"FOLD_TYPE", .enum tagsSta, false, 0⟩, ⟨"STANDARDIZE_FOLD", .enum tagsStd, false, 0⟩,
  ⟨"OUTPUT_FBY", .enum bool, false, 0⟩, ⟨"OUTPUT_FBQ", .enum bool, false, 0⟩, ⟨"OUTPUT_FBM", .enum bool, false, 0⟩,
  ⟨"OUTPUT_FBW", .enum bool, false, 0⟩, ⟨"OUTPUT_FBD", .enum bool, false, 0⟩, ⟨"OUTPUT_TRY", .enum bool, false, 0⟩,
  ⟨"OUTPUT_TRQ", .enum bool, false, 0⟩, ⟨"OUTPUT_TRM", .enum bool, false, 0⟩, ⟨"OUTPUT_TRW", .enum bool, false, 0⟩,
  ⟨"OUTPUT_TRD", .enum bool, false, 0⟩, ⟨"OUTPUT_CAY", .enum bool, false, 0⟩, ⟨"OUTPUT_CAQ", .enum bool, false, 0⟩,
  ⟨"OUTPUT_CAM", .enum bool, false, 0⟩, ⟨"OUTPUT_CAW", .enum bool, false, 0⟩, ⟨"OUTPUT_CAD", .enum bool, false, 0⟩,
  ⟨"POL_START_THRESHOLD", .float (1 / 100) (99 / 100), false, 0⟩,
  ⟨"POL_MID_THRESHOLD", .float (1 / 100) (99 / 100), false, 0⟩,
  ⟨"POL_END_THRESHOLD", .float (1 / 100) (99 / 100), false, 0⟩, ⟨"POL_ADAPTIVE", .enum bool, false, 0⟩,
  ⟨"POL", .enum tagsPol, true, (-1)⟩, ⟨"STANDARDIZE_POL", .enum tagsStd, false, 0⟩,
  ⟨"OUTPUT_PCT", .enum bool, false, 0⟩, ⟨"OUTPUT_POL", .enum bool, false, 0⟩, ⟨"OUTPUT_TRO", .enum bool, false, 0⟩,
  ⟨"OUTPUT_CAO", .enum bool, false, 0⟩, ⟨"TREND_TAIL", .enum tagsTail, false, 0⟩,
  ⟨"TREND_CONF", .float 0 1, false, 0⟩, ⟨"CHANGE_PENALTY", .enum bool, false, 0⟩,
  ⟨"FILE_PYTHON", .char .nullOrExist, false, 0⟩, ⟨"PYTHON_TYPE", .enum tagsUdf, false, 0⟩,
  ⟨"OUTPUT_PYP", .enum bool, false, 0⟩, ⟨"FILE_RSTATS", .char .nullOrExist, false, 0⟩,
  ⟨"RSTATS_TYPE", .enum tagsUdf, false, 0⟩, ⟨"OUTPUT_RSP", .enum bool, false, 0⟩]

/-- param-hl.c:278-285 `register_cso`. -/
def regCso : List Reg := [
  ⟨"MONTH_STEP", .int 1 12, false, 0⟩, ⟨"CSO", .enum tagsSta, true, (-1)⟩]

/-- param-hl.c:293-301 `register_imp`. -/
def regImp : List Reg := [
  ⟨"SEASONAL_WINDOW", .int 1 365, true, (-1)⟩, ⟨"KERNEL_SIZE", .double 0 1000000, false, 0⟩,
  ⟨"KERNEL_TEXT", .double 0 1000000, false, 0⟩]

/-- param-hl.c:309-320 `register_cfi`. -/
def regCfi : List Reg := [
  ⟨"DIR_COARSE", .char .nullOrExist, false, 0⟩, ⟨"BASE_COARSE", .char .base, true, (-1)⟩,
  ⟨"COARSE_NODATA", .int (-32768) 32767, false, 0⟩, ⟨"COARSE_1ST_YEAR", .int 1900 2100, false, 0⟩,
  ⟨"COARSE_PREDICT_YEARS", .int 1900 2100, true, (-1)⟩]

/-- param-hl.c:328-335 `register_l2i`. -/
def regL2i : List Reg := [
  ⟨"SENSORS_LOWRES", .char .none, true, (-1)⟩]

/-- param-hl.c:343-362 `register_mcl`; `n`: number of lines with FILE_MODEL. -/
def regMcl (n : Nat) : List Reg :=
  [⟨"DIR_MODEL", .char .exist, false, 0⟩, ⟨"ML_METHOD", .enum tagsMl, false, 0⟩,
   ⟨"ML_CONVERGENCE", .float 0 2147483647, false, 0⟩, ⟨"ML_SCALE", .float 0 1000000, false, 0⟩,
   ⟨"ML_BASE", .char .none, false, 0⟩, ⟨"OUTPUT_MLP", .enum bool, false, 0⟩, ⟨"OUTPUT_MLI", .enum bool, false, 0⟩,
   ⟨"OUTPUT_MLU", .enum bool, false, 0⟩, ⟨"OUTPUT_RFP", .enum bool, false, 0⟩, ⟨"OUTPUT_RFM", .enum bool, false, 0⟩] ++
  List.replicate n ⟨"FILE_MODEL", .char .base, true, (-1)⟩

/-- param-hl.c:389-399 `register_smp`. -/
def regSmp : List Reg := [
  ⟨"FILE_POINTS", .char .exist, false, 0⟩, ⟨"FILE_SAMPLE", .char .notExist, false, 0⟩,
  ⟨"FILE_RESPONSE", .char .notExist, false, 0⟩, ⟨"FILE_COORDINATES", .char .notExist, false, 0⟩,
  ⟨"PROJECTED", .enum bool, false, 0⟩]

/-- param-hl.c:407-416 `register_txt`. -/
def regTxt : List Reg := [
  ⟨"TXT_RADIUS", .double 0 1000000, false, 0⟩, ⟨"TXT_ITERATION", .int 1 1000, false, 0⟩,
  ⟨"TXT", .enum tagsTxt, true, (-1)⟩, ⟨"TXT_BASE", .char .none, false, 0⟩]

/-- param-hl.c:424-437 `register_lsm`. -/
def regLsm : List Reg := [
  ⟨"LSM_RADIUS", .double 0 1000000, false, 0⟩, ⟨"LSM_MIN_PATCHSIZE", .int 0 1000000, false, 0⟩,
  ⟨"LSM_THRESHOLD_TYPE", .enum tagsQuery, true, (-1)⟩, ⟨"LSM_THRESHOLD", .int (-32768) 32767, true, (-1)⟩,
  ⟨"LSM_ALL_PIXELS", .enum bool, false, 0⟩, ⟨"LSM", .enum tagsLsm, true, (-1)⟩, ⟨"LSM_BASE", .char .none, false, 0⟩,
  ⟨"LSM_KERNEL_SHAPE", .enum tagsKernel, false, 0⟩]

/-- param-hl.c:445-454 `register_lib`. -/
def regLib : List Reg := [
  ⟨"DIR_LIBRARY", .char .exist, false, 0⟩, ⟨"FILE_LIBRARY", .char .base, true, (-1)⟩,
  ⟨"LIB_RESCALE", .enum bool, false, 0⟩, ⟨"LIB_BASE", .char .none, false, 0⟩]

/-- param-hl.c:462-479 `register_udf`. -/
def regUdf : List Reg := [
  ⟨"FILE_PYTHON", .char .nullOrExist, false, 0⟩, ⟨"PYTHON_TYPE", .enum tagsUdf, false, 0⟩,
  ⟨"OUTPUT_PYP", .enum bool, false, 0⟩, ⟨"FILE_RSTATS", .char .nullOrExist, false, 0⟩,
  ⟨"RSTATS_TYPE", .enum tagsUdf, false, 0⟩, ⟨"OUTPUT_RSP", .enum bool, false, 0⟩,
  ⟨"REQUIRE_AUX_PRODUCTS", .char .none, true, (-1)⟩]

/-- param-train-aux.c:40-68 `register_train`. -/
def regTrain : List Reg := [
  ⟨"FILE_FEATURES", .char .exist, false, 0⟩, ⟨"FILE_RESPONSE", .char .exist, false, 0⟩,
  ⟨"FILE_MODEL", .char .none, false, 0⟩, ⟨"FILE_LOG", .char .none, false, 0⟩,
  ⟨"RESPONSE_VARIABLE", .int 1 2147483647, false, 0⟩, ⟨"PERCENT_TRAIN", .float (1 / 1000) 100, false, 0⟩,
  ⟨"RANDOM_SPLIT", .enum bool, false, 0⟩, ⟨"FEATURE_WEIGHTS", .char .none, true, (-1)⟩,
  ⟨"ML_METHOD", .enum tagsMl, false, 0⟩, ⟨"RF_NTREE", .int 0 2147483647, false, 0⟩,
  ⟨"RF_OOB_ACCURACY", .float 0 2147483647, false, 0⟩, ⟨"RF_NFEATURE", .int 0 2147483647, false, 0⟩,
  ⟨"RF_FEATURE_IMPORTANCE", .enum bool, false, 0⟩, ⟨"RF_DT_MINSAMPLE", .int 0 2147483647, false, 0⟩,
  ⟨"RF_DT_MAXDEPTH", .int 0 2147483647, false, 0⟩, ⟨"RF_DT_REG_ACCURACY", .float 0 2147483647, false, 0⟩,
  ⟨"SVM_MAXITER", .int 0 2147483647, false, 0⟩, ⟨"SVM_ACCURACY", .float 0 2147483647, false, 0⟩,
  ⟨"SVM_KFOLD", .int 1 2147483647, false, 0⟩, ⟨"SVM_P", .float 0 2147483647, false, 0⟩,
  ⟨"SVM_C_GRID", .float 0 2147483647, true, (-1)⟩, ⟨"SVM_GAMMA_GRID", .float 0 2147483647, true, (-1)⟩]

/-! ## Skeletons -/

/-- param-aux.c:37-89 `write_par_ll_dirs`. -/
def llDirs : List Entry := [
  ⟨"FILE_QUEUE", " = ", "NULL"⟩, ⟨"DIR_LEVEL2", " = ", "NULL"⟩, ⟨"DIR_LOG", " = ", "NULL"⟩,
  ⟨"DIR_PROVENANCE", " = ", "NULL"⟩, ⟨"DIR_TEMP", " = ", "NULL"⟩]

/-- param-aux.c:98-112 `write_par_ll_aoi`. -/
def llAoi : List Entry := [
  ⟨"FILE_AOI", " = ", "NULL"⟩]

/-- param-aux.c:121-166 `write_par_ll_dem`. -/
def llDem : List Entry := [
  ⟨"FILE_DEM", " = ", "NULL"⟩, ⟨"DEM_RESAMPLING", " = ", "BL"⟩, ⟨"USE_DEM_DATABASE", " = ", "FALSE"⟩,
  ⟨"DEM_NODATA", " = ", "-32767"⟩]

/-- param-aux.c:175-269 `write_par_ll_cube`. -/
def llCube : List Entry := [
  ⟨"DO_REPROJ", " = ", "TRUE"⟩, ⟨"DO_TILE", " = ", "TRUE"⟩, ⟨"FILE_TILE", " = ", "NULL"⟩,
  ⟨"TILE_SIZE", " = ", "30000 30000"⟩, ⟨"RESOLUTION_LANDSAT", " = ", "30"⟩, ⟨"RESOLUTION_SENTINEL2", " = ", "10"⟩,
  ⟨"ORIGIN_LON", " = ", "-25"⟩, ⟨"ORIGIN_LAT", " = ", "60"⟩, ⟨"PROJECTION", " = ", "GLANCE7"⟩,
  ⟨"RESAMPLING", " = ", "CC"⟩]

/-- param-aux.c:278-321 `write_par_ll_atcor`. -/
def llAtcor : List Entry := [
  ⟨"DO_ATMO", " = ", "TRUE"⟩, ⟨"DO_TOPO", " = ", "TRUE"⟩, ⟨"DO_BRDF", " = ", "TRUE"⟩,
  ⟨"ADJACENCY_EFFECT", " = ", "TRUE"⟩, ⟨"MULTI_SCATTERING", " = ", "TRUE"⟩]

/-- param-aux.c:330-369 `write_par_ll_wvp`. -/
def llWvp : List Entry := [
  ⟨"DIR_WVPLUT", " = ", "NULL"⟩, ⟨"STRICT_WATER_VAPOR", " = ", "FALSE"⟩, ⟨"WATER_VAPOR", " = ", "NULL"⟩]

/-- param-aux.c:378-402 `write_par_ll_aod`. -/
def llAod : List Entry := [
  ⟨"DO_AOD", "  = ", "TRUE"⟩, ⟨"DIR_AOD", "  = ", "NULL"⟩]

/-- param-aux.c:411-457 `write_par_ll_cloud`. -/
def llCloud : List Entry := [
  ⟨"ERASE_CLOUDS", " = ", "FALSE"⟩, ⟨"MAX_CLOUD_COVER_FRAME", " = ", "75"⟩, ⟨"MAX_CLOUD_COVER_TILE", "  = ", "75"⟩,
  ⟨"CLOUD_BUFFER", "  = ", "300"⟩, ⟨"CIRRUS_BUFFER", " = ", "0"⟩, ⟨"SHADOW_BUFFER", " = ", "90"⟩,
  ⟨"SNOW_BUFFER", "   = ", "30"⟩, ⟨"CLOUD_THRESHOLD", "  = ", "0.225"⟩, ⟨"SHADOW_THRESHOLD", " = ", "0.02"⟩]

/-- param-aux.c:466-487 `write_par_ll_resmerge`. -/
def llResmerge : List Entry := [
  ⟨"RES_MERGE", " = ", "IMPROPHE"⟩]

/-- param-aux.c:496-517 `write_par_ll_coreg`. -/
def llCoreg : List Entry := [
  ⟨"DIR_COREG_BASE", " = ", "NULL"⟩, ⟨"COREG_BASE_NODATA", " = ", "-9999"⟩]

/-- param-aux.c:526-546 `write_par_ll_misc`. -/
def llMisc : List Entry := [
  ⟨"IMPULSE_NOISE", " = ", "TRUE"⟩, ⟨"BUFFER_NODATA", " = ", "FALSE"⟩]

/-- param-aux.c:555-572 `write_par_ll_tier`. -/
def llTier : List Entry := [
  ⟨"TIER", " = ", "1"⟩]

/-- param-aux.c:581-631 `write_par_ll_thread`. -/
def llThread : List Entry := [
  ⟨"NPROC", " = ", "32"⟩, ⟨"NTHREAD", " = ", "2"⟩, ⟨"PARALLEL_READS", " = ", "FALSE"⟩, ⟨"DELAY", " = ", "3"⟩,
  ⟨"TIMEOUT_ZIP", " = ", "30"⟩]

/-- param-aux.c:640-717 `write_par_ll_output`. -/
def llOutput : List Entry := [
  ⟨"OUTPUT_FORMAT", " = ", "COG"⟩, ⟨"FILE_OUTPUT_OPTIONS", " = ", "NULL"⟩, ⟨"OUTPUT_DST", " = ", "FALSE"⟩,
  ⟨"OUTPUT_AOD", " = ", "FALSE"⟩, ⟨"OUTPUT_WVP", " = ", "FALSE"⟩, ⟨"OUTPUT_VZN", " = ", "FALSE"⟩,
  ⟨"OUTPUT_HOT", " = ", "FALSE"⟩, ⟨"OUTPUT_OVV", " = ", "TRUE"⟩]

/-- param-aux.c:726-751 `write_par_hl_dirs`. -/
def hlDirs : List Entry := [
  ⟨"DIR_LOWER", " = ", "NULL"⟩, ⟨"DIR_HIGHER", " = ", "NULL"⟩, ⟨"DIR_PROVENANCE", " = ", "NULL"⟩]

/-- param-aux.c:760-781 `write_par_hl_mask`. -/
def hlMask : List Entry := [
  ⟨"DIR_MASK", " = ", "NULL"⟩, ⟨"BASE_MASK", " = ", "NULL"⟩]

/-- param-aux.c:790-834 `write_par_hl_extent`. -/
def hlExtent : List Entry := [
  ⟨"X_TILE_RANGE", " = ", "0 0"⟩, ⟨"Y_TILE_RANGE", " = ", "0 0"⟩, ⟨"FILE_TILE", " = ", "NULL"⟩,
  ⟨"CHUNK_SIZE", " = ", "0 0"⟩, ⟨"RESOLUTION", " = ", "10"⟩]

/-- param-aux.c:843-857 `write_par_hl_psf`. -/
def hlPsf : List Entry := [
  ⟨"REDUCE_PSF", " = ", "FALSE"⟩]

/-- param-aux.c:866-879 `write_par_hl_improphed`. -/
def hlImprophed : List Entry := [
  ⟨"USE_L2_IMPROPHE", " = ", "FALSE"⟩]

/-- param-aux.c:888-945 `write_par_hl_sensor`. -/
def hlSensor : List Entry := [
  ⟨"SENSORS", " = ", "LND08 LND09 SEN2A SEN2B SEN2C"⟩, ⟨"TARGET_SENSOR", " = ", "LNDLG"⟩,
  ⟨"PRODUCT_TYPE_MAIN", " = ", "BOA"⟩, ⟨"PRODUCT_TYPE_QUALITY", " = ", "QAI"⟩, ⟨"SPECTRAL_ADJUST", " = ", "FALSE"⟩]

/-- param-aux.c:954-969 `write_par_hl_qai`. -/
def hlQai : List Entry := [
  ⟨"SCREEN_QAI", " = ", "NODATA CLOUD_OPAQUE CLOUD_BUFFER CLOUD_CIRRUS CLOUD_SHADOW SNOW SUBZERO SATURATION"⟩]

/-- param-aux.c:978-999 `write_par_hl_noise`. -/
def hlNoise : List Entry := [
  ⟨"ABOVE_NOISE", " = ", "0"⟩, ⟨"BELOW_NOISE", " = ", "0"⟩]

/-- param-aux.c:1008-1041 `write_par_hl_time`. -/
def hlTime : List Entry := [
  ⟨"DATE_RANGE", " = ", "2010-01-01 2019-12-31"⟩, ⟨"DOY_RANGE", " = ", "1 365"⟩,
  ⟨"DATE_IGNORE_LANDSAT_7", " = ", "2099-12-31"⟩]

/-- param-aux.c:1050-1112 `write_par_hl_output`. -/
def hlOutput : List Entry := [
  ⟨"OUTPUT_FORMAT", " = ", "GTiff"⟩, ⟨"FILE_OUTPUT_OPTIONS", " = ", "NULL"⟩, ⟨"OUTPUT_EXPLODE", " = ", "FALSE"⟩,
  ⟨"OUTPUT_SUBFOLDERS", " = ", "FALSE"⟩, ⟨"FAIL_IF_EMPTY", " = ", "FALSE"⟩]

/-- param-aux.c:1121-1161 `write_par_hl_thread`. -/
def hlThread : List Entry := [
  ⟨"NTHREAD_READ", " = ", "8"⟩, ⟨"NTHREAD_COMPUTE", " = ", "22"⟩, ⟨"NTHREAD_WRITE", " = ", "4"⟩,
  ⟨"STREAMING", " = ", "TRUE"⟩, ⟨"PRETTY_PROGRESS", " = ", "TRUE"⟩]

/-- param-aux.c:1170-1366 `write_par_hl_bap`. -/
def hlBap : List Entry := [
  ⟨"YEAR_TARGET", " = ", "2018"⟩, ⟨"YEAR_NUM", " = ", "2"⟩, ⟨"Y_FACTOR", " = ", "0.75"⟩, ⟨"SELECT", " = ", "TRUE"⟩,
  ⟨"COMBINE_SCORES", " = ", "ADDITIVE"⟩, ⟨"REQUIRE_AUX_PRODUCTS", " = ", "DST HOT"⟩,
  ⟨"DOY_SCORE", " = ", "0.01 0.99 0.01"⟩, ⟨"DOY_STATIC", " = ", "120 180 240"⟩, ⟨"OFF_SEASON", " = ", "FALSE"⟩,
  ⟨"USE_CLOUDY", " = ", "FALSE"⟩, ⟨"USE_HAZY", " = ", "FALSE"⟩, ⟨"SCORE_DOY_WEIGHT", " = ", "1.0"⟩,
  ⟨"SCORE_YEAR_WEIGHT", " = ", "1.0"⟩, ⟨"SCORE_CLOUD_WEIGHT", " = ", "0.4"⟩, ⟨"SCORE_HAZE_WEIGHT", " = ", "0.3"⟩,
  ⟨"SCORE_CORREL_WEIGHT", " = ", "0.0"⟩, ⟨"SCORE_VZEN_WEIGHT", " = ", "0.0"⟩, ⟨"DREQ", " = ", "3000"⟩,
  ⟨"HREQ", " = ", "-150"⟩, ⟨"VREQ", " = ", "7.5"⟩, ⟨"OUTPUT_BAP", " = ", "TRUE"⟩, ⟨"OUTPUT_INF", " = ", "TRUE"⟩,
  ⟨"OUTPUT_SCR", " = ", "FALSE"⟩, ⟨"OUTPUT_OVV", " = ", "FALSE"⟩]

/-- param-aux.c:1375-1439 `write_par_hl_pac`. -/
def hlPac : List Entry := [
  ⟨"LSP_DO", " = ", "FALSE"⟩, ⟨"DIR_LSP", " = ", "NULL"⟩, ⟨"BASE_LSP", " = ", "NULL"⟩,
  ⟨"LSP_1ST_YEAR", " = ", "2000"⟩, ⟨"LSP_START", " = ", "2000"⟩, ⟨"LSP_THRESHOLD", " = ", "182"⟩,
  ⟨"LSP_NODATA", " = ", "-9999"⟩]

/-- param-aux.c:1448-1481 `write_par_hl_index`. -/
def hlIndex : List Entry := [
  ⟨"INDEX", " = ", "NDVI EVI NBR RED NIR"⟩, ⟨"STANDARDIZE_TSS", " = ", "NONE"⟩, ⟨"OUTPUT_TSS", " = ", "FALSE"⟩]

/-- param-aux.c:1490-1538 `write_par_hl_sma`. -/
def hlSma : List Entry := [
  ⟨"FILE_ENDMEM", "  = ", "NULL"⟩, ⟨"SMA_SUM_TO_ONE", " = ", "TRUE"⟩, ⟨"SMA_NON_NEG", " = ", "TRUE"⟩,
  ⟨"SMA_SHD_NORM", " = ", "TRUE"⟩, ⟨"SMA_ENDMEMBER", " = ", "1"⟩, ⟨"OUTPUT_RMS", " = ", "FALSE"⟩]

/-- param-aux.c:1547-1643 `write_par_hl_tsi`. -/
def hlTsi : List Entry := [
  ⟨"INTERPOLATE", " = ", "NONE"⟩, ⟨"MOVING_MAX", " = ", "16"⟩, ⟨"RBF_SIGMA", " = ", "8 16 32"⟩,
  ⟨"RBF_CUTOFF", " = ", "0.95"⟩, ⟨"HARMONIC_TREND", " = ", "TRUE"⟩, ⟨"HARMONIC_MODES", " = ", "3"⟩,
  ⟨"HARMONIC_FIT_RANGE", " = ", "2015-01-01 2017-12-31"⟩, ⟨"OUTPUT_NRT", " = ", "FALSE"⟩, ⟨"INT_DAY", " = ", "16"⟩,
  ⟨"STANDARDIZE_TSI", " = ", "NONE"⟩, ⟨"OUTPUT_TSI", " = ", "FALSE"⟩]

/-- param-aux.c:1652-1691 `write_par_hl_pyp`. -/
def hlPyp : List Entry := [
  ⟨"FILE_PYTHON", " = ", "NULL"⟩, ⟨"PYTHON_TYPE", " = ", "PIXEL"⟩, ⟨"OUTPUT_PYP", " = ", "FALSE"⟩]

/-- param-aux.c:1700-1729 `write_par_hl_rsp`. -/
def hlRsp : List Entry := [
  ⟨"FILE_RSTATS", " = ", "NULL"⟩, ⟨"RSTATS_TYPE", " = ", "PIXEL"⟩, ⟨"OUTPUT_RSP", " = ", "FALSE"⟩]

/-- param-aux.c:1738-1750 `write_par_hl_udf`. -/
def hlUdf : List Entry := [
  ⟨"REQUIRE_AUX_PRODUCTS", " = ", "NULL"⟩]

/-- param-aux.c:1759-1784 `write_par_hl_stm`. -/
def hlStm : List Entry := [
  ⟨"OUTPUT_STM", " = ", "FALSE"⟩, ⟨"STM", " = ", "Q25 Q50 Q75 AVG STD"⟩]

/-- param-aux.c:1793-1853 `write_par_hl_fold`. -/
def hlFold : List Entry := [
  ⟨"FOLD_TYPE", " = ", "AVG"⟩, ⟨"STANDARDIZE_FOLD", " = ", "NONE"⟩, ⟨"OUTPUT_FBY", " = ", "FALSE"⟩,
  ⟨"OUTPUT_FBQ", " = ", "FALSE"⟩, ⟨"OUTPUT_FBM", " = ", "FALSE"⟩, ⟨"OUTPUT_FBW", " = ", "FALSE"⟩,
  ⟨"OUTPUT_FBD", " = ", "FALSE"⟩, ⟨"OUTPUT_TRY", " = ", "FALSE"⟩, ⟨"OUTPUT_TRQ", " = ", "FALSE"⟩,
  ⟨"OUTPUT_TRM", " = ", "FALSE"⟩, ⟨"OUTPUT_TRW", " = ", "FALSE"⟩, ⟨"OUTPUT_TRD", " = ", "FALSE"⟩,
  ⟨"OUTPUT_CAY", " = ", "FALSE"⟩, ⟨"OUTPUT_CAQ", " = ", "FALSE"⟩, ⟨"OUTPUT_CAM", " = ", "FALSE"⟩,
  ⟨"OUTPUT_CAW", " = ", "FALSE"⟩, ⟨"OUTPUT_CAD", " = ", "FALSE"⟩]

/-- param-aux.c:1862-1957 `write_par_hl_pol`. -/
def hlPol : List Entry := [
  ⟨"POL_START_THRESHOLD", " = ", "0.2"⟩, ⟨"POL_MID_THRESHOLD", " = ", "0.5"⟩, ⟨"POL_END_THRESHOLD", " = ", "0.8"⟩,
  ⟨"POL_ADAPTIVE", " = ", "TRUE"⟩, ⟨"POL", " = ", "VSS VPS VES VSA RMR IGS"⟩, ⟨"STANDARDIZE_POL", " = ", "NONE"⟩,
  ⟨"OUTPUT_PCT", " = ", "FALSE"⟩, ⟨"OUTPUT_POL", " = ", "FALSE"⟩, ⟨"OUTPUT_TRO", " = ", "FALSE"⟩,
  ⟨"OUTPUT_CAO", " = ", "FALSE"⟩]

/-- param-aux.c:1966-1995 `write_par_hl_trend`. -/
def hlTrend : List Entry := [
  ⟨"TREND_TAIL", " = ", "TWO"⟩, ⟨"TREND_CONF", " = ", "0.95"⟩, ⟨"CHANGE_PENALTY", " = ", "FALSE"⟩]

/-- param-aux.c:2004-2028 `write_par_hl_cso`. -/
def hlCso : List Entry := [
  ⟨"MONTH_STEP", " = ", "3"⟩, ⟨"CSO", " = ", "NUM AVG STD"⟩]

/-- param-aux.c:2037-2073 `write_par_hl_imp`. -/
def hlImp : List Entry := [
  ⟨"SEASONAL_WINDOW", " = ", "1 91 181 271 365"⟩, ⟨"KERNEL_SIZE", " = ", "2500"⟩, ⟨"KERNEL_TEXT", " = ", "330"⟩]

/-- param-aux.c:2082-2129 `write_par_hl_cfi`. -/
def hlCfi : List Entry := [
  ⟨"DIR_COARSE", " = ", "NULL"⟩, ⟨"BASE_COARSE", " = ", "NULL"⟩, ⟨"COARSE_1ST_YEAR", " = ", "2000"⟩,
  ⟨"COARSE_PREDICT_YEARS", " = ", "2000 2005 2010 2011 2012 2013 2014 2015"⟩, ⟨"COARSE_NODATA", " = ", "-9999"⟩]

/-- param-aux.c:2138-2155 `write_par_hl_l2i`. -/
def hlL2i : List Entry := [
  ⟨"SENSORS_LOWRES", " = ", "LND07 LND08 LND09"⟩]

/-- param-aux.c:2164-2197 `write_par_hl_feature`. -/
def hlFeature : List Entry := [
  ⟨"INPUT_FEATURE", " = ", "2018-2018_001-365_LEVEL4_TSA_SEN2L_NDV_STM.tif 1 2 3 4 5 6"⟩,
  ⟨"INPUT_FEATURE", " = ", "2018-2018_001-365_LEVEL4_TSA_SEN2L_NIR_STM.tif 7 8 9 10 11 12 13"⟩,
  ⟨"INPUT_FEATURE", " = ", "2018-2018_001-365_LEVEL4_TSA_SEN2L_RED_STM.tif 1 2 3 4 5 6 7 8 9 10 11 12 13"⟩,
  ⟨"FEATURE_NODATA", " = ", "-9999"⟩, ⟨"FEATURE_EXCLUDE", " = ", "FALSE"⟩]

/-- param-aux.c:2206-2244 `write_par_hl_txt`. -/
def hlTxt : List Entry := [
  ⟨"TXT_RADIUS", " = ", "50"⟩, ⟨"TXT_ITERATION", " = ", "1"⟩, ⟨"TXT", " = ", "DIL ERO BHT"⟩,
  ⟨"TXT_BASE", " = ", "TEXTURE"⟩]

/-- param-aux.c:2253-2331 `write_par_hl_lsm`. -/
def hlLsm : List Entry := [
  ⟨"LSM_RADIUS", " = ", "50"⟩, ⟨"LSM_MIN_PATCHSIZE", " = ", "3"⟩, ⟨"LSM_KERNEL_SHAPE", " = ", "CIRCLE"⟩,
  ⟨"LSM_THRESHOLD_TYPE", " = ", "EQ LT EQ EQ GT LT EQ LT GT EQ GT EQ GT GT GT LT LT EQ GT GT GT EQ GT LT LT LT"⟩,
  ⟨"LSM_THRESHOLD", " = ", "2000 2000 3500 2000 -2000 5000 7500 -3500 500 750 890 999 0 0 0 0 0 50 5500 1500 300 78 250 500 500 500"⟩,
  ⟨"LSM_ALL_PIXELS", " = ", "FALSE"⟩, ⟨"LSM", " = ", "UCI MPA FDI EDD NBR EMS AVG GEO STD MAX ARE"⟩,
  ⟨"LSM_BASE", " = ", "LSM"⟩]

/-- param-aux.c:2340-2378 `write_par_hl_lib`. -/
def hlLib : List Entry := [
  ⟨"DIR_LIBRARY", " = ", "NULL"⟩, ⟨"FILE_LIBRARY", " = ", "biomass.txt builtup.txt land-cover.txt"⟩,
  ⟨"LIB_RESCALE", " = ", "TRUE"⟩, ⟨"LIB_BASE", " = ", "LIB"⟩]

/-- param-aux.c:2387-2428 `write_par_hl_smp`. -/
def hlSmp : List Entry := [
  ⟨"FILE_POINTS", " = ", "NULL"⟩, ⟨"FILE_SAMPLE", " = ", "NULL"⟩, ⟨"FILE_RESPONSE", " = ", "NULL"⟩,
  ⟨"FILE_COORDINATES", " = ", "NULL"⟩, ⟨"PROJECTED", " = ", "FALSE"⟩]

/-- param-aux.c:2437-2546 `write_par_hl_ml`. -/
def hlMl : List Entry := [
  ⟨"DIR_MODEL", " = ", "NULL"⟩, ⟨"FILE_MODEL", " = ", "biomass-1.xml biomass-2.xml biomass-3.xml"⟩,
  ⟨"FILE_MODEL", " = ", "canopy-cover.xml"⟩, ⟨"FILE_MODEL", " = ", "tree-height.xml"⟩, ⟨"ML_METHOD", " = ", "SVR"⟩,
  ⟨"ML_CONVERGENCE", " = ", "0"⟩, ⟨"ML_SCALE", " = ", "10000"⟩, ⟨"ML_BASE", " = ", "PREDICTION"⟩,
  ⟨"OUTPUT_MLP", " = ", "FALSE"⟩, ⟨"OUTPUT_MLI", " = ", "FALSE"⟩, ⟨"OUTPUT_MLU", " = ", "FALSE"⟩,
  ⟨"OUTPUT_RFP", " = ", "FALSE"⟩, ⟨"OUTPUT_RFM", " = ", "FALSE"⟩]

/-- param-aux.c:2555-2757 `write_par_aux_train`. -/
def auxTrain : List Entry := [
  ⟨"FILE_FEATURES", " = ", "NULL"⟩, ⟨"FILE_RESPONSE", " = ", "NULL"⟩, ⟨"FILE_MODEL", " = ", "NULL"⟩,
  ⟨"FILE_LOG", " = ", "NULL"⟩, ⟨"RESPONSE_VARIABLE", " = ", "1"⟩, ⟨"PERCENT_TRAIN", " = ", "70"⟩,
  ⟨"RANDOM_SPLIT", " = ", "TRUE"⟩, ⟨"ML_METHOD", " = ", "RFC"⟩, ⟨"FEATURE_WEIGHTS", " = ", "EQUALIZED"⟩,
  ⟨"RF_NTREE", " = ", "500"⟩, ⟨"RF_OOB_ACCURACY", " = ", "0"⟩, ⟨"RF_NFEATURE", " = ", "0"⟩,
  ⟨"RF_FEATURE_IMPORTANCE", " = ", "TRUE"⟩, ⟨"RF_DT_MINSAMPLE", " = ", "0"⟩, ⟨"RF_DT_MAXDEPTH", " = ", "0"⟩,
  ⟨"RF_DT_REG_ACCURACY", " = ", "0.01"⟩, ⟨"SVM_MAXITER", " = ", "1000000"⟩, ⟨"SVM_ACCURACY", " = ", "0.001"⟩,
  ⟨"SVM_KFOLD", " = ", "10"⟩, ⟨"SVM_P", " = ", "0"⟩, ⟨"SVM_C_GRID", " = ", "0.001 10000 1"⟩,
  ⟨"SVM_GAMMA_GRID", " = ", "0.000010 10000 10"⟩]

/-- param-aux.c:2766-2893 `write_par_aux_synthmix`. -/
def auxSynthmix : List Entry := [
  ⟨"FILE_FEATURES", " = ", "NULL"⟩, ⟨"FILE_RESPONSE", " = ", "NULL"⟩, ⟨"SYNTHETIC_MIXTURES", " = ", "1000"⟩,
  ⟨"INCLUDE_ORIGINAL", " = ", "FALSE"⟩, ⟨"MIXING_COMPLEXITY", " = ", "1 2 3 4"⟩,
  ⟨"MIXING_LIKELIHOOD", " = ", "0.2 0.4 0.2 0.2"⟩, ⟨"WITHIN_CLASS_MIXING", " = ", "TRUE"⟩,
  ⟨"CLASS_LIKELIHOOD", " = ", "PROPORTIONAL"⟩, ⟨"ITERATIONS", " = ", "10"⟩, ⟨"TARGET_CLASS", " = ", "1 2 3 4"⟩,
  ⟨"USE_CLASSES", " = ", "ALL"⟩, ⟨"DIR_MIXES", " = ", "NULL"⟩, ⟨"BASE_MIXES", " = ", "SYNTHMIX"⟩]

end Verif.Skel
