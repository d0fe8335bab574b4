import Verif.Meta.Accept
import Verif.Meta.Fields
import Verif.Meta.GridProps

/-!
# C183-C189: concrete cases that meet the hypotheses
-/

namespace Verif.Meta.Examples

open Verif.Libc Verif.Str Verif.Meta Verif.Meta.Spec

/-- A number reader: the digits of a text. -/
def num (v : List Char) : ℚ := (natVal (v.filter Char.isDigit) : ℚ)

theorem num_newline (v : List Char) : num (v ++ ['\n']) = num v := by
  unfold num
  rw [List.filter_append]
  have : (['\n'] : List Char).filter Char.isDigit = [] := by decide
  rw [this, List.append_nil]

/-- Lines before the name of the spacecraft. -/
def pre : List Line := [.other "GROUP = L1_METADATA_FILE".toList]

/-- The spacecraft. -/
def craft : Line := .entry 4 "SPACECRAFT_ID".toList ("LANDSAT_".toList ++ [Char.ofNat (48 + 5)]) true

/-- A line of the image. -/
def category : Line := .entry 4 "COLLECTION_CATEGORY".toList "T2".toList true

/-- A line of the image. -/
def level : Line := .entry 4 "DATA_TYPE".toList "L1TP".toList true

/-- A line of the image. -/
def day : Line := .date 4 "DATE_ACQUIRED".toList "1999".toList "07".toList "31".toList

/-- A line of the image. -/
def clock : Line := .clock 4 "SCENE_CENTER_TIME".toList "09".toList "41".toList "22".toList

/-- A line of the image. -/
def path : Line := .entry 4 "WRS_PATH".toList "194".toList false

/-- A line of the image. -/
def row : Line := .entry 4 "WRS_ROW".toList "024".toList false

/-- A line of the image. -/
def left : Line := .entry 4 "CORNER_UL_PROJECTION_X_PRODUCT".toList "600000".toList false

/-- A line of the image. -/
def top : Line := .entry 4 "CORNER_UL_PROJECTION_Y_PRODUCT".toList "5700000".toList false

/-- A line of the image. -/
def lines : Line := .entry 4 "REFLECTIVE_LINES".toList "6931".toList false

/-- A line of the image. -/
def samples : Line := .entry 4 "REFLECTIVE_SAMPLES".toList "7811".toList false

/-- A line of the image. -/
def cell : Line := .entry 4 "GRID_CELL_SIZE_REFLECTIVE".toList "30".toList false

/-- Lines of the image. -/
def image : List Line := [category, level, day, clock, path, row, left, top, lines, samples, cell]

/-- Lines of the bands. -/
def bandLines : List Line :=
  (bands 5).flatMap fun b =>
    [.entry 4 ("FILE_NAME_BAND_" ++ b.1).toList ("L5_B" ++ b.1 ++ ".TIF").toList true,
     .entry 4 ("RADIANCE_MAXIMUM_BAND_" ++ b.1).toList "193".toList false,
     .entry 4 ("RADIANCE_MINIMUM_BAND_" ++ b.1).toList "2".toList false,
     .entry 4 ("QUANTIZE_CAL_MAX_BAND_" ++ b.1).toList "255".toList false,
     .entry 4 ("QUANTIZE_CAL_MIN_BAND_" ++ b.1).toList "1".toList false,
     .entry 4 ("REFLECTANCE_MULT_BAND_" ++ b.1).toList "12".toList false,
     .entry 4 ("REFLECTANCE_ADD_BAND_" ++ b.1).toList "3".toList false]

/-- The file. -/
def file : List Line := pre ++ craft :: (image ++ bandLines)

instance (x : List Char) : Decidable (Plain x) := by unfold Plain; infer_instance
instance (x : List Char) : Decidable (Word x) := by unfold Word; infer_instance
instance (l : Line) : Decidable (Good l) := by unfold Good; cases l <;> infer_instance

theorem good : ∀ l ∈ file, Good l := by decide +kernel

/-- The file is accepted. -/
def accepted : Out St → Bool
  | .ok _ => true
  | _ => false

theorem exists_ok {o : Out St} (h : accepted o = true) : ∃ st, o = .ok st := by
  cases o with
  | ok st => exact ⟨st, rfl⟩
  | exit => cases h
  | ub => cases h

theorem parsed : ∃ st, parseLandsat num "d".toList 2 (fileText file none) = .ok st :=
  exists_ok (by decide +kernel)

theorem no_fill (v : List Char) : num v ≠ -32768 := by
  unfold num
  intro h
  have : (0 : ℚ) ≤ (natVal (v.filter Char.isDigit) : ℚ) := Nat.cast_nonneg _
  rw [h] at this
  exact absurd this (by norm_num)

theorem once : ∀ l ∈ image ++ bandLines, ¬ hasTag ["SPACECRAFT_ID"] l := by decide +kernel

/-- File names are quoted. -/
def nameOk : Line → Bool
  | .entry _ t _ q => !decide ("FILE_NAME".toList <:+: t) || q
  | _ => true

theorem nameOk_entry (n : Nat) (t v : List Char) (q : Bool) :
    nameOk (.entry n t v q) = (!decide ("FILE_NAME".toList <:+: t) || q) := rfl

theorem quoted : ∀ n t v q, Line.entry n t v q ∈ image ++ bandLines → "FILE_NAME".toList <:+: t → q = true := by
  have key : ∀ l ∈ image ++ bandLines, nameOk l = true := by decide +kernel
  intro n t v q hm hi
  have := key _ hm
  rw [nameOk_entry, decide_eq_true hi] at this
  exact this

/-- C183: the file of a Landsat 5 image; the low gain of the red band, say, is read. -/
example : ∃ st, parseLandsat num "d".toList 2 (fileText file none) = .ok st ∧
    st.lid = 5 ∧ st.cals.map (fun c => (c.band, c.domain)) = bands 5 := by
  obtain ⟨st, h⟩ := parsed
  obtain ⟨h1, h2, -⟩ := c183_calibration num num_newline "d".toList 2 pre (image ++ bandLines) none 4 5
    (by decide) "LANDSAT_".toList st good once (fun _ _ v _ _ => no_fill v) quoted h
  exact ⟨st, h, h1, h2⟩

/-- C184: all quantities of that file are there. -/
example : ∀ b ∈ bands 5, firstValue (fileTags 5 b.1) (image ++ bandLines) ≠ none := by
  obtain ⟨st, h⟩ := parsed
  exact fun b hb => (c184_refused_partial num num_newline "d".toList 2 pre (image ++ bandLines) none 4 5
    (by decide) "LANDSAT_".toList st good once (fun _ _ v _ _ => no_fill v) quoted h b hb).1

/-- C184: a file without the lines of the bands is refused, one without the minimum
radiance is not. -/
example : (∀ st, parseLandsat num "d".toList 2 (fileText (pre ++ craft :: image) none) ≠ .ok st) ∧
    ∃ st, parseLandsat num "d".toList 2 (fileText (pre ++ craft :: withoutMinimum 5 (image ++ bandLines)) none)
      = .ok st ∧ ∀ c ∈ st.cals, c.value .lmin = -32768 := by
  constructor
  · intro st h
    have := c184_refused_partial num num_newline "d".toList 2 pre image none 4 5 (by decide) "LANDSAT_".toList st
      (fun l hl => good l (by
        rcases List.mem_append.1 hl with hl | hl
        · exact List.mem_append_left _ hl
        · refine List.mem_append_right _ ?_
          rcases List.mem_cons.1 hl with hl | hl
          · exact List.mem_cons.2 (Or.inl hl)
          · exact List.mem_cons_of_mem _ (List.mem_append_left _ hl)))
      (fun l hl => once l (List.mem_append_left _ hl)) (fun _ _ v _ _ => no_fill v)
      (fun n t v q hl => quoted n t v q (List.mem_append_left _ hl)) h ("1", "BLUE") (by decide)
    exact this.1 (by decide +kernel)
  obtain ⟨st, h⟩ := parsed
  obtain ⟨st', h1, -, h3⟩ := c184_minimum_violated num num_newline "d".toList 2 pre (image ++ bandLines) none 4 5
    (by decide) "LANDSAT_".toList st good once (fun _ _ v _ _ => no_fill v) quoted h
  exact ⟨st', h1, h3⟩

/-- C185: the image of this file is of tier 2 by its category, and is accepted as tier 1 because
of the line that follows. -/
example : ∃ st, parseLandsat num "d".toList 1 (fileText file none) = .ok st := by
  obtain ⟨st, h⟩ := parsed
  exact ⟨st, (c185_order_violated num "d".toList 2 (pre ++ [craft]) [] ([day, clock, path, row, left, top, lines, samples, cell] ++ bandLines) none 4 4
    "DATA_TYPE".toList "T2".toList "L1TP".toList true true st (Or.inl rfl) (by decide) good
    (by decide +kernel) h).2⟩

/-- C185: with the lines the other way round the image is not accepted as tier 1, but as tier
2. -/
example : (∃ st, parseLandsat num "d".toList 2 (fileText (pre ++ craft :: level :: category ::
      ([day, clock, path, row, left, top, lines, samples, cell] ++ bandLines)) none) = .ok st) ∧
    ∀ st, parseLandsat num "d".toList 1 (fileText (pre ++ craft :: level :: category ::
      ([day, clock, path, row, left, top, lines, samples, cell] ++ bandLines)) none) ≠ .ok st := by
  refine ⟨exists_ok (by decide +kernel), ?_⟩
  intro st h
  have hg : ∀ l ∈ pre ++ craft :: level :: category ::
      ([day, clock, path, row, left, top, lines, samples, cell] ++ bandLines), Good l := by
    intro l hl
    refine good l ?_
    have hp : List.Perm (pre ++ craft :: level :: category ::
        ([day, clock, path, row, left, top, lines, samples, cell] ++ bandLines))
        (pre ++ craft :: category :: level ::
        ([day, clock, path, row, left, top, lines, samples, cell] ++ bandLines)) :=
      ((List.Perm.swap _ _ _).cons _).append_left _
    exact hp.subset hl
  have := (c185_tier_partial num "d".toList 1 (pre ++ [craft, level]) ([day, clock, path, row, left, top, lines,
    samples, cell] ++ bandLines) none 4 "COLLECTION_CATEGORY".toList "T2".toList true st hg (by decide +kernel) h).2.1
    rfl (by decide)
  omega

/-- C186: position, size and time of the image. -/
example : ∃ st, parseLandsat num "d".toList 2 (fileText file none) = .ok st ∧ st.ncols = some 7811 ∧
    st.nrows = some 6931 ∧ st.res = some 30 ∧ st.ulx = some (600000 - 15) ∧ st.uly = some (5700000 + 15) ∧
    st.ymd = some (1999, 7, 31) ∧ st.hms = some (9, 41, 22) := by
  obtain ⟨st, h⟩ := parsed
  have h1 := c186_columns num "d".toList 2 (pre ++ craft :: [category, level, day, clock, path, row, left, top, lines]) ([cell] ++ bandLines) none 4
    "REFLECTIVE_SAMPLES".toList "7811".toList false st (by decide) (by decide) good (by decide +kernel) h
  have h2 := c186_rows num "d".toList 2 (pre ++ craft :: [category, level, day, clock, path, row, left, top]) ([samples, cell] ++ bandLines) none 4
    "REFLECTIVE_LINES".toList "6931".toList false st (by decide) (by decide) good (by decide +kernel) h
  have h3 := c186_resolution num "d".toList 2 (pre ++ craft :: [category, level, day, clock, path, row, left, top, lines, samples]) bandLines none 4
    "GRID_CELL_SIZE_REFLECTIVE".toList "30".toList false st (by decide) (by decide) good (by decide +kernel) h
  have h4 := c186_left num "d".toList 2 (pre ++ craft :: [category, level, day, clock, path, row]) ([top, lines, samples, cell] ++ bandLines) none 4
    "CORNER_UL_PROJECTION_X_PRODUCT".toList "600000".toList false st num_newline (by decide) good
    (by decide +kernel) h
  have h5 := c186_top num "d".toList 2 (pre ++ craft :: [category, level, day, clock, path, row, left]) ([lines, samples, cell] ++ bandLines) none 4
    "CORNER_UL_PROJECTION_Y_PRODUCT".toList "5700000".toList false st num_newline (by decide) good
    (by decide +kernel) h
  have h6 := c186_date num "d".toList 2 (pre ++ craft :: [category, level]) ([clock, path, row, left, top, lines, samples, cell] ++ bandLines) none 4
    "DATE_ACQUIRED".toList "1999".toList "07".toList "31".toList st good (by
      have : ∀ l ∈ [clock, path, row, left, top, lines, samples, cell] ++ bandLines, (match l with | .date .. => false | _ => true) = true := by
        decide +kernel
      intro l hl n t y m d e
      have := this l hl
      rw [e] at this
      cases this) h
  have h7 := c186_time num "d".toList 2 (pre ++ craft :: [category, level, day]) ([path, row, left, top, lines, samples, cell] ++ bandLines) none 4
    "SCENE_CENTER_TIME".toList "09".toList "41".toList "22".toList [] st (by decide) (by simp) good (by
      have : ∀ l ∈ [path, row, left, top, lines, samples, cell] ++ bandLines, (match l with | .clock .. => false | _ => true) = true := by
        decide +kernel
      intro l hl n t y m d e
      have := this l hl
      rw [e] at this
      cases this) h
  refine ⟨st, h, h1.trans (by decide), h2.trans (by decide), h3.trans (by decide), ?_, ?_,
    h6.trans (by decide), h7.trans (by decide)⟩
  · rw [h4]
    have : num "600000".toList = 600000 := by decide +kernel
    rw [this]; norm_num
  · rw [h5]
    have : num "5700000".toList = 5700000 := by decide +kernel
    rw [this]; norm_num

/-- C187: a cell with four angles, one with one angle, and one without. -/
example : Grid.interpCell [30, 31, 32, 33] 2 (-32768) 0 0 = some (63 / 2) ∧
    Grid.interpCell [-1, 31, -1, -1] 2 (-32768) 0 0 = some 31 ∧
    Grid.interpCell [-1, -1, -1, -1] 2 (-32768) 0 0 = some (-32768) ∧
    Grid.interpCell [359, 1, 359, 1] 2 (-32768) 0 0 = some 180 := by
  decide +kernel

/-- C187: detectors with and without angles. -/
example : Grid.collapseCell [6, -32768, 8] (-32768) = 7 ∧
    Grid.collapseCell [105, 285] (-32768) = 195 := by decide +kernel

/-- C187: the hypotheses. -/
example : Grid.Spec.corners [1, 2, 3, 4, 5, 6, 7, 8, 9] 3 1 1 = [some 5, some 6, some 8, some 9] ∧
    Grid.interpGrid [1, 2, 3, 4, 5, 6, 7, 8, 9] 3 3 (-32768) = some [3, 4, 6, 7] := by decide +kernel

/-- C188: view angles only in the columns 10 to 20. -/
example : Grid.pixels (Grid.subset (fun _ j => 10 ≤ j ∧ j ≤ 20) 22 22 false) 10 10980 10980
    = some { left := 4500, right := 10500, top := 0, bottom := 10980 } := by decide +kernel

/-- C189: the offset of band 3. -/
example : Grid.offsetLine (fun w => if w = "3".toList then some 3 else none)
    (fun w => if w = "-1000".toList then some (-1000) else none) [0, 0, 0, 0]
    (Grid.Spec.offsetText 8 "3".toList "-1000".toList) = .ok [0, 0, 0, -1000] ∧
    Grid.Spec.Word "3".toList ∧ Grid.Spec.Word "-1000".toList ∧
    Grid.offsetLine (fun w => if w = "3".toList then some 3 else none)
    (fun w => if w = "-1000".toList then some (-1000) else none) [0, 0, 0]
    (Grid.Spec.offsetText 8 "3".toList "-1000".toList) = .ub := by
  have h3 : Grid.Spec.Word "3".toList := by unfold Grid.Spec.Word; decide
  have h4 : Grid.Spec.Word "-1000".toList := by unfold Grid.Spec.Word; decide
  refine ⟨?_, h3, h4, ?_⟩
  · rw [Grid.offset_line _ _ _ 8 3 _ _ (-1000) h3 h4 (by decide) (by decide) (by decide)]
    rfl
  · exact Grid.c189_range_violated _ _ _ 8 3 _ _ (-1000) h3 h4 (by decide) (by decide) (by decide) (by decide)

end Verif.Meta.Examples
