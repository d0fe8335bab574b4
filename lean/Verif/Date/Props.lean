import Verif.Date.Lemmas
import Verif.Float
import Mathlib.Data.List.TakeWhile

/-!
# Properties C01 - C06: dates
-/

namespace Verif.Date
open Spec

/-! ## C01 -/

/-- C01: day-of-year -> (month, day) gives a valid calendar day whose day-of-year is the
argument; the month-only and day-only converters agree with it. -/
theorem c01_doy_roundtrip (doy : Int) (h1 : 1 ≤ doy) (h2 : doy ≤ 365) :
    ValidMD (doy2md doy).1 (doy2md doy).2 ∧
    dayOfYear (doy2md doy).1 (doy2md doy).2 = doy ∧
    md2doy (doy2md doy).1 (doy2md doy).2 = doy ∧
    doy2m doy = (doy2md doy).1 ∧ doy2d doy = (doy2md doy).2 := by
  have hv := doy2md_valid h1 h2
  refine ⟨hv, dayOfYear_doy2md h1, ?_, doy2m_eq doy, doy2d_eq doy⟩
  rw [md2doy_eq hv.1 hv.2.1, dayOfYear_doy2md h1]

/-- C01: (month, day) -> day-of-year counts the days since the start of the year and is
inverted by the other direction. -/
theorem c01_md_roundtrip (m d : Int) (h : ValidMD m d) :
    md2doy m d = dayOfYear m d ∧ 1 ≤ md2doy m d ∧ md2doy m d ≤ 365 ∧
    doy2md (md2doy m d) = (m, d) ∧ doy2m (md2doy m d) = m ∧ doy2d (md2doy m d) = d := by
  have e := md2doy_eq (d := d) h.1 h.2.1
  have r := dayOfYear_range h
  have s := doy2md_dayOfYear h
  rw [e]
  refine ⟨rfl, r.1, r.2, s, ?_, ?_⟩
  · rw [doy2m_eq, s]
  · rw [doy2d_eq, s]

/- non-vacuity -/
example : ValidMD 12 31 ∧ md2doy 12 31 = 365 ∧ doy2md 365 = (12, 31) ∧ doy2md 59 = (2, 28) ∧
    doy2md 60 = (3, 1) := by
  simp [ValidMD, monthLength, monthLengths, md2doy, doy2md]

/-- C01: weeks and quarters of every day of the year; week and quarter starts map back to
their own week and quarter. -/
theorem c01_week_quarter :
    (∀ doy, 1 ≤ doy → doy ≤ 365 → doy2week doy = week doy ∧ 1 ≤ doy2week doy ∧ doy2week doy ≤ 52) ∧
    (∀ m d, ValidMD m d → doy2quarter (md2doy m d) = quarter m ∧ m2quarter m = quarter m ∧
      1 ≤ quarter m ∧ quarter m ≤ 4) ∧
    (∀ w, 1 ≤ w → w ≤ 52 → doy2week (week2doy w) = w ∧ 1 ≤ week2doy w ∧ week2doy w ≤ 365) ∧
    (∀ q, 1 ≤ q → q ≤ 4 → doy2quarter (quarter2doy q) = q ∧ 1 ≤ quarter2doy q ∧
      quarter2doy q ≤ 365) := by
  refine ⟨?_, ?_, ?_, ?_⟩
  · intro doy h1 h2
    rw [doy2week_eq]; unfold week; omega
  · intro m d h
    have s := c01_md_roundtrip m d h
    refine ⟨?_, m2quarter_eq m, ?_, ?_⟩
    · unfold doy2quarter; rw [s.2.2.2.1, m2quarter_eq]
    · have := h.1; have := h.2.1; unfold quarter; omega
    · have := h.1; have := h.2.1; unfold quarter; omega
  · intro w h1 h2
    rw [doy2week_eq]; unfold week week2doy; omega
  · intro q h1 h2
    have h : q = 1 ∨ q = 2 ∨ q = 3 ∨ q = 4 := by omega
    rcases h with h | h | h | h <;> subst h <;>
      simp [quarter2doy, md2doy, doy2quarter, doy2md, m2quarter]

example : doy2week 365 = 52 ∧ doy2week 8 = 2 ∧ doy2quarter 91 = 2 := by decide

/-! ## C02 -/

/-- C02: date -> continuous day -> date, day-of-year and year, for every year. -/
theorem c02_date_ce_date (y m d : Int) (h : ValidMD m d) :
    ce2date (date2ce y m d) = (y, m, d) ∧
    ce2doy (date2ce y m d) = (dayOfYear m d, y) ∧
    ce2year (date2ce y m d) = y := by
  have e := md2doy_eq (d := d) h.1 h.2.1
  have r := dayOfYear_range h
  have s := doy2md_dayOfYear h
  unfold ce2date ce2doy ce2year date2ce
  rw [e]
  generalize hk : dayOfYear m d = k at *
  dsimp only
  by_cases hk365 : k = 365
  · have hq : (y * 365 + k) / 365 = y + 1 := by omega
    rw [hq]
    have hz : y * 365 + k - (y + 1) * 365 = 0 := by omega
    have hmd : (m, d) = (12, 31) := by rw [← s, hk365]; decide
    have hm : m = 12 := congrArg Prod.fst hmd
    have hd : d = 31 := congrArg Prod.snd hmd
    simp only [hz, if_true]
    simp [hm, hd, hk365]
  · have hq : (y * 365 + k) / 365 = y := by omega
    rw [hq]
    have hz : y * 365 + k - y * 365 = k := by omega
    have hn : ¬ k = 0 := by omega
    simp [hz, hn, s]

/-- C02: continuous day -> date -> continuous day, for every continuous day; the date is a
valid one. -/
theorem c02_ce_date_ce (ce : Int) :
    ∃ y m d, ce2date ce = (y, m, d) ∧ ValidMD m d ∧ date2ce y m d = ce ∧
      ce2doy ce = (dayOfYear m d, y) ∧ ce2year ce = y ∧ doy2ce (dayOfYear m d) y = ce := by
  obtain ⟨hv, he⟩ := ce2date_valid ce
  have hce : date2ce (ce2date ce).1 (ce2date ce).2.1 (ce2date ce).2.2 = ce := by
    unfold date2ce; rw [md2doy_eq hv.1 hv.2.1]; exact he
  have hr := c02_date_ce_date (ce2date ce).1 _ _ hv
  rw [hce] at hr
  exact ⟨_, _, _, rfl, hv, hce, hr.2.1, hr.2.2, he⟩

/-- The continuous day of all years up to five million fits a 32-bit `int`: the model's
unbounded integers are faithful there. -/
theorem ce_fits_int32 (y m d : Int) (hy : -5000000 ≤ y ∧ y ≤ 5000000) (h : ValidMD m d) :
    -2147483648 ≤ date2ce y m d ∧ date2ce y m d < 2147483648 := by
  have e := md2doy_eq (d := d) h.1 h.2.1
  have r := dayOfYear_range h
  unfold date2ce; omega

/-- C02: the double precision expression `floor(ce/365.0)` of the code (date-cl.c) is the exact
floor the model uses, for every non-negative `int`. -/
theorem c02_double_floor_exact (ce t : Int) (h0 : 0 ≤ ce) (h1 : ce < 2147483648)
    (ht : Float.DivFloor 53 ce 365 t) : t = ce / 365 :=
  Float.divFloor_exact h0 (by norm_num) (by omega) (by norm_num) ht

example : ce2date (date2ce 2020 12 31) = (2020, 12, 31) ∧ date2ce 2020 12 31 % 365 = 0 := by decide

/-! ## C03 -/

theorem dayOfYear_lt {m d m' d' : Int} (h : ValidMD m d) (h' : ValidMD m' d') :
    dayOfYear m d < dayOfYear m' d' ↔ (m < m' ∨ (m = m' ∧ d < d')) := by
  obtain ⟨h1, h2, h3, h4⟩ := h
  obtain ⟨g1, g2, g3, g4⟩ := h'
  rcases month_cases h1 h2 with h | h | h | h | h | h | h | h | h | h | h | h <;> subst h <;>
  rcases month_cases g1 g2 with g | g | g | g | g | g | g | g | g | g | g | g <;> subst g <;>
    simp [monthLength, monthLengths] at h4 g4 <;> simp [dayOfYear, monthLengths] <;> omega

/-- C03: continuous day numbers embed the chronological order of valid dates. -/
theorem c03_ce_chronological (y m d y' m' d' : Int) (h : ValidMD m d) (h' : ValidMD m' d') :
    date2ce y m d < date2ce y' m' d' ↔ Before y m d y' m' d' := by
  have e := md2doy_eq (d := d) h.1 h.2.1
  have e' := md2doy_eq (d := d') h'.1 h'.2.1
  have r := dayOfYear_range h
  have r' := dayOfYear_range h'
  have l := dayOfYear_lt h h'
  unfold date2ce Before
  rw [e, e', ← l]
  omega

/-- C03: different valid dates never share a continuous day number. -/
theorem c03_ce_injective (y m d y' m' d' : Int) (h : ValidMD m d) (h' : ValidMD m' d')
    (he : date2ce y m d = date2ce y' m' d') : y = y' ∧ m = m' ∧ d = d' := by
  have a := (c02_date_ce_date y m d h).1
  have b := (c02_date_ce_date y' m' d' h').1
  rw [he] at a
  rw [a] at b
  simpa using b

/-- C03, limit of the statement: acquisitions of 29 February (which exist) share their
continuous day with 1 March, so chronology is not strict for leap days. -/
theorem c03_leap_day_collision (y : Int) : date2ce y 2 29 = date2ce y 3 1 := by
  simp [date2ce, md2doy]

example : Before 2019 12 31 2020 1 1 ∧ date2ce 2019 12 31 < date2ce 2020 1 1 := by
  unfold Before; decide

/-! ## C04 -/

/-- Specification: all fields of the record describe one valid date. -/
def Consistent (r : DateT) : Prop :=
  ValidMD r.month r.day ∧ r.doy = dayOfYear r.month r.day ∧ r.week = week r.doy ∧
    r.quarter = quarter r.month ∧ r.ce = 365 * r.year + r.doy

/-- C03: two dates are accepted as a period if and only if the second is not before the first. -/
theorem c03_date_order (a b : DateT) (ha : Consistent a) (hb : Consistent b) :
    dateOrder a b = true ↔ ¬ Before b.year b.month b.day a.year a.month a.day := by
  obtain ⟨va, da, -, -, ca⟩ := ha
  obtain ⟨vb, db, -, -, cb⟩ := hb
  have h := c03_ce_chronological b.year b.month b.day a.year a.month a.day vb va
  unfold date2ce at h
  rw [md2doy_eq va.1 va.2.1, md2doy_eq vb.1 vb.2.1, ← da, ← db] at h
  rw [← h]
  unfold dateOrder
  rw [ca, cb]
  simp only [Bool.not_eq_true', decide_eq_false_iff_not, gt_iff_lt]
  constructor <;> intro h <;> omega

/-- The public setters of date-cl.c. -/
inductive Op where
  | date (y m d : Int) | year (y : Int) | monthDay (m d : Int) | ce (ce : Int)
  | doy (doy : Int) | week (w : Int) | month (m : Int) | quarter (q : Int)
  | time (hh mm ss : Int)

/-- Calling a setter. -/
def Op.run (r : DateT) : Op → DateT
  | .date y m d => setDate r y m d
  | .year y => setYear r y
  | .monthDay m d => setMonthDay r m d
  | .ce c => setCe r c
  | .doy x => setDoy r x
  | .week w => setWeek r w
  | .month m => setMonth r m
  | .quarter q => setQuarter r q
  | .time a b c => setTime r a b c

/-- Valid arguments. -/
def Op.Valid : Op → Prop
  | .date _ m d => ValidMD m d
  | .year _ => True
  | .monthDay m d => ValidMD m d
  | .ce _ => True
  | .doy x => 1 ≤ x ∧ x ≤ 365
  | .week w => 1 ≤ w ∧ w ≤ 52
  | .month m => 1 ≤ m ∧ m ≤ 12
  | .quarter q => 1 ≤ q ∧ q ≤ 4
  | .time _ _ _ => True

theorem consistent_setMonthDay (r : DateT) {m d : Int} (h : ValidMD m d) :
    Consistent (setMonthDay r m d) := by
  have s := c01_md_roundtrip m d h
  refine ⟨h, s.1, ?_, ?_, ?_⟩
  · exact doy2week_eq _
  · exact (c01_week_quarter.2.1 m d h).1
  · simp [setMonthDay, doy2ce]; omega

/-- What each setter is asked to establish. -/
def Op.Post (r : DateT) : Op → Prop
  | .date y m d => r.year = y ∧ r.month = m ∧ r.day = d
  | .year y => r.year = y
  | .monthDay m d => r.month = m ∧ r.day = d
  | .ce c => r.ce = c
  | .doy x => r.doy = x
  | .week w => r.week = w
  | .month m => r.month = m ∧ r.day = 1
  | .quarter q => r.quarter = q ∧ r.day = 1
  | .time a b c => r.hh = a ∧ r.mm = b ∧ r.ss = c

theorem setDoy_consistent (r : DateT) {x : Int} (h1 : 1 ≤ x) (h2 : x ≤ 365) :
    Consistent (setDoy r x) ∧ (setDoy r x).doy = x := by
  have s := c01_doy_roundtrip x h1 h2
  exact ⟨consistent_setMonthDay r s.1, s.2.2.1⟩

theorem op_step (r : DateT) (o : Op) (hv : o.Valid) (hr : Consistent r) :
    Consistent (o.run r) ∧ o.Post (o.run r) := by
  cases o with
  | date y m d => exact ⟨consistent_setMonthDay _ hv, rfl, rfl, rfl⟩
  | year y =>
    obtain ⟨a, b, c, d, e⟩ := hr
    refine ⟨⟨a, b, c, d, ?_⟩, rfl⟩
    simp [Op.run, setYear, doy2ce]; omega
  | monthDay m d => exact ⟨consistent_setMonthDay _ hv, rfl, rfl⟩
  | ce c =>
    obtain ⟨hv', he⟩ := ce2date_valid c
    refine ⟨consistent_setMonthDay _ hv', ?_⟩
    have e := md2doy_eq (d := (ce2date c).2.2) hv'.1 hv'.2.1
    simp [Op.Post, Op.run, setCe, setDate, setMonthDay, setYear, doy2ce]
    omega
  | doy x => exact setDoy_consistent r hv.1 hv.2
  | week w =>
    have hw := c01_week_quarter.2.2.1 w hv.1 hv.2
    have s := setDoy_consistent r hw.2.1 hw.2.2
    refine ⟨s.1, ?_⟩
    have := s.1.2.2.1
    simp only [Op.Post, Op.run, setWeek]
    rw [this, s.2, ← doy2week_eq]; exact hw.1
  | month m =>
    have hm : ValidMD m 1 := by
      refine ⟨hv.1, hv.2, by omega, ?_⟩
      rcases month_cases hv.1 hv.2 with h | h | h | h | h | h | h | h | h | h | h | h <;> subst h <;>
        decide
    have s := c01_md_roundtrip m 1 hm
    refine ⟨(setDoy_consistent r s.2.1 s.2.2.1).1, ?_⟩
    simp only [Op.Post, Op.run, setMonth, setDoy, setMonthDay, s.2.2.2.1]
    exact ⟨trivial, trivial⟩
  | quarter q =>
    have hq := c01_week_quarter.2.2.2 q hv.1 hv.2
    have s := setDoy_consistent r hq.2.1 hq.2.2
    refine ⟨s.1, ?_⟩
    have h : q = 1 ∨ q = 2 ∨ q = 3 ∨ q = 4 := by have := hv.1; have := hv.2; omega
    rcases h with h | h | h | h <;> subst h <;>
      simp [Op.Post, Op.run, setQuarter, setDoy, setMonthDay, quarter2doy, md2doy, doy2md,
        doy2quarter, m2quarter]
  | time a b c => exact ⟨hr, rfl, rfl, rfl⟩

/-- C04: any sequence of setter calls with valid arguments keeps a consistent record
consistent. -/
theorem c04_setters_consistent (r : DateT) (hr : Consistent r) (ops : List Op)
    (hv : ∀ o ∈ ops, o.Valid) : Consistent (ops.foldl Op.run r) := by
  induction ops generalizing r with
  | nil => exact hr
  | cons o os ih =>
    exact ih _ (op_step r o (hv o (by simp)) hr).1 (fun o' h => hv o' (by simp [h]))

/-- C04: from an arbitrary (even uninitialised) record, the first full setting
(`set_date` or `set_date_ce`) establishes consistency, and every later setter keeps it and
establishes what it was asked for. -/
theorem c04_from_any_record (r : DateT) (first : Op)
    (hf : (∃ y m d, first = .date y m d) ∨ ∃ c, first = .ce c)
    (ops : List Op) (last : Op) (hv : first.Valid ∧ last.Valid ∧ ∀ o ∈ ops, o.Valid) :
    Consistent (last.run (ops.foldl Op.run (first.run r))) ∧
      last.Post (last.run (ops.foldl Op.run (first.run r))) := by
  have h0 : Consistent (first.run r) := by
    rcases hf with ⟨y, m, d, rfl⟩ | ⟨c, rfl⟩
    · exact consistent_setMonthDay _ hv.1
    · exact consistent_setMonthDay _ (ce2date_valid c).1
  exact op_step _ last hv.2.1 (c04_setters_consistent _ h0 ops hv.2.2)

example : Consistent (setDate initDate 2020 3 31) ∧ (Op.week 52).Valid ∧
    (Op.monthDay 2 28).Valid := by
  simp [Consistent, setDate, setYear, setMonthDay, initDate, md2doy, doy2week, doy2quarter,
    doy2md, m2quarter, ValidMD, monthLength, monthLengths, dayOfYear, week, quarter, doy2ce,
    Op.Valid]

/-- C04 is violated by the day-stepping functions of datesys-cl.c: they leave the quarter
unchanged. Whenever the neighbouring day lies in another quarter, the record becomes
inconsistent. -/
theorem c04_date_step_violated (tm : Int × Int × Int → Int × Int × Int) (r : DateT)
    (hr : Consistent r) (hq : quarter (tm (r.year, r.month, r.day)).2.1 ≠ quarter r.month) :
    ¬ Consistent (dateStep tm r) := by
  intro h
  have h1 := h.2.2.2.1
  have h2 := hr.2.2.2.1
  simp only [dateStep] at h1
  rw [h2] at h1
  exact hq h1.symm

/-- C04, day stepping: all fields but the quarter are right, if the neighbouring day is a
day of the 365-day calendar. -/
theorem c04_date_step_partial (tm : Int × Int × Int → Int × Int × Int) (r : DateT)
    (hv : ValidMD (tm (r.year, r.month, r.day)).2.1 (tm (r.year, r.month, r.day)).2.2)
    (hq : quarter (tm (r.year, r.month, r.day)).2.1 = r.quarter) :
    Consistent (dateStep tm r) := by
  have s := c01_md_roundtrip _ _ hv
  refine ⟨hv, s.1, doy2week_eq _, hq.symm, ?_⟩
  simp [dateStep, doy2ce]; omega

/-- Witness for `c04_date_step_violated`: stepping from 31 March to 1 April. -/
example : ∃ (tm : Int × Int × Int → Int × Int × Int) (r : DateT), Consistent r ∧ quarter (tm (r.year, r.month, r.day)).2.1 ≠ quarter r.month :=
  ⟨fun _ => (2020, 4, 1), setDate initDate 2020 3 31,
    by simp [Consistent, setDate, setYear, setMonthDay, initDate, md2doy, doy2week, doy2quarter,
      doy2md, m2quarter, ValidMD, monthLength, monthLengths, dayOfYear, week, quarter, doy2ce]⟩

/-! ## C05 -/

/-- A decimal digit character and its value. -/
def IsDigitOf (c : Char) (v : Nat) : Prop := c.isDigit = true ∧ c.toNat = v + 48

theorem isDigitOf_facts {c : Char} {v : Nat} (h : IsDigitOf c v) :
    isSpace c = false ∧ isSep c = false ∧ isCut c = false ∧ c ≠ '-' ∧ c ≠ '+' := by
  have h1 := h.1
  have ne : ∀ x : Char, x.isDigit = false → c ≠ x := by
    intro x hx he; rw [he, hx] at h1; exact absurd h1 (by simp)
  refine ⟨?_, ?_, ?_, ne _ (by decide), ne _ (by decide)⟩ <;>
    simp only [isSpace, isSep, isCut, Bool.or_eq_false_iff, decide_eq_false_iff_not]
  · refine ⟨⟨⟨⟨⟨?_, ?_⟩, ?_⟩, ?_⟩, ?_⟩, ?_⟩ <;> exact ne _ (by decide)
  · refine ⟨⟨⟨⟨⟨?_, ?_⟩, ?_⟩, ?_⟩, ?_⟩, ?_⟩ <;> exact ne _ (by decide)
  · refine ⟨⟨?_, ?_⟩, ?_⟩ <;> exact ne _ (by decide)

theorem atoi_digits {c : Char} {v : Nat} (cs : List Char) (h : IsDigitOf c v) :
    atoi (c :: cs) = digitsVal 0 (c :: cs) := by
  have f := isDigitOf_facts h
  have hd : List.dropWhile isSpace (c :: cs) = c :: cs := by simp [List.dropWhile, f.1]
  unfold atoi
  rw [hd]
  split
  · rename_i h'; exact absurd (List.cons.inj h').1 f.2.2.2.1
  · rename_i h'; exact absurd (List.cons.inj h').1 f.2.2.2.2
  · rfl

theorem digitsVal_cons {c : Char} {v : Nat} (acc : Int) (cs : List Char) (h : IsDigitOf c v) :
    digitsVal acc (c :: cs) = digitsVal (acc * 10 + v) cs := by
  rw [digitsVal, if_pos h.1, h.2]
  congr 1
  omega

/-- C05, acceptance: leading separators, then eight digits that form a valid date of the
years 1900..2099, then nothing or a separator or a comment/line end, is read as exactly this
date with a consistent record, whatever the caller's record contained. -/
theorem c05_valid_dates_accepted (date : DateT) (pre post : List Char)
    (c1 c2 c3 c4 c5 c6 c7 c8 : Char) (v1 v2 v3 v4 v5 v6 v7 v8 : Nat)
    (hpre : ∀ c ∈ pre, isSep c = true)
    (hpost : post = [] ∨ ∃ c cs, post = c :: cs ∧ (isSep c = true ∨ isCut c = true))
    (h1 : IsDigitOf c1 v1) (h2 : IsDigitOf c2 v2) (h3 : IsDigitOf c3 v3) (h4 : IsDigitOf c4 v4)
    (h5 : IsDigitOf c5 v5) (h6 : IsDigitOf c6 v6) (h7 : IsDigitOf c7 v7) (h8 : IsDigitOf c8 v8)
    (hlen : (pre ++ [c1, c2, c3, c4, c5, c6, c7, c8] ++ post).length < 1024)
    (y m d : Int) (hy : y = v1 * 1000 + v2 * 100 + v3 * 10 + v4) (hm : m = v5 * 10 + v6)
    (hd : d = v7 * 10 + v8) (hyr : 1900 ≤ y ∧ y ≤ 2099) (hmd : ValidMD m d) :
    ∃ r, dateFromString date (pre ++ [c1, c2, c3, c4, c5, c6, c7, c8] ++ post) = .success r ∧
      r.year = y ∧ r.month = m ∧ r.day = d ∧ Consistent r := by
  have f1 := isDigitOf_facts h1
  have f2 := isDigitOf_facts h2
  have f3 := isDigitOf_facts h3
  have f4 := isDigitOf_facts h4
  have f5 := isDigitOf_facts h5
  have f6 := isDigitOf_facts h6
  have f7 := isDigitOf_facts h7
  have f8 := isDigitOf_facts h8
  have sepcut : ∀ c, isSep c = true → isCut c = false := by
    intro c hc
    simp only [isSep, Bool.or_eq_true, decide_eq_true_eq] at hc
    rcases hc with ((((h | h) | h) | h) | h) | h <;> subst h <;> decide
  -- cutting at the line end
  obtain ⟨post', hcut, hpost'⟩ : ∃ post', (pre ++ [c1, c2, c3, c4, c5, c6, c7, c8] ++ post).takeWhile
      (fun c => !isCut c) = pre ++ ([c1, c2, c3, c4, c5, c6, c7, c8] ++ post') ∧
      (post' = [] ∨ ∃ c cs, post' = c :: cs ∧ isSep c = true) := by
    refine ⟨post.takeWhile (fun c => !isCut c), ?_, ?_⟩
    · rw [List.append_assoc, List.takeWhile_append_of_pos]
      · simp [List.takeWhile, f1.2.2.1, f2.2.2.1, f3.2.2.1, f4.2.2.1, f5.2.2.1, f6.2.2.1,
          f7.2.2.1, f8.2.2.1]
      · intro c hc; simp [sepcut c (hpre c hc)]
    · rcases hpost with h | ⟨c, cs, h, hc | hc⟩
      · left; simp [h]
      · right; refine ⟨c, cs.takeWhile (fun c => !isCut c), ?_, hc⟩
        simp [h, sepcut c hc]
      · left; simp [h, hc]
  -- the token
  have htok : firstToken (pre ++ ([c1, c2, c3, c4, c5, c6, c7, c8] ++ post')) =
      some [c1, c2, c3, c4, c5, c6, c7, c8] := by
    have hdrop : (pre ++ ([c1, c2, c3, c4, c5, c6, c7, c8] ++ post')).dropWhile isSep =
        [c1, c2, c3, c4, c5, c6, c7, c8] ++ post' := by
      rw [List.dropWhile_append_of_pos hpre]
      simp [f1.2.1]
    unfold firstToken
    rw [hdrop]
    simp only [List.cons_append, List.nil_append]
    simp [List.takeWhile, f1.2.1, f2.2.1, f3.2.1, f4.2.1, f5.2.1, f6.2.1, f7.2.1, f8.2.1]
    rcases hpost' with h | ⟨c, cs, h, hc⟩
    · simp [h]
    · simp [h, hc]
  have hY : atoi [c1, c2, c3, c4] = y := by
    rw [atoi_digits _ h1, digitsVal_cons _ _ h1, digitsVal_cons _ _ h2, digitsVal_cons _ _ h3,
      digitsVal_cons _ _ h4, digitsVal, hy]; omega
  have hM : atoi [c5, c6] = m := by
    rw [atoi_digits _ h5, digitsVal_cons _ _ h5, digitsVal_cons _ _ h6, digitsVal, hm]; omega
  have hD : atoi [c7, c8] = d := by
    rw [atoi_digits _ h7, digitsVal_cons _ _ h7, digitsVal_cons _ _ h8, digitsVal, hd]; omega
  have hc : Consistent (setDate initDate y m d) := consistent_setMonthDay _ hmd
  have hok : rangeOk (setDate initDate y m d) = true := by
    obtain ⟨a, b, c, d', e⟩ := hc
    have r := dayOfYear_range a
    have hw := c01_week_quarter.1 (setDate initDate y m d).doy (by rw [b]; exact r.1)
      (by rw [b]; exact r.2)
    have hml : monthLength (setDate initDate y m d).month ≤ 31 := by
      rcases month_cases a.1 a.2.1 with h | h | h | h | h | h | h | h | h | h | h | h <;>
        rw [h] <;> decide
    have hyy : (setDate initDate y m d).year = y := rfl
    obtain ⟨a1, a2, a3, a4⟩ := a
    rw [hw.1] at hw
    unfold rangeOk
    simp only [Bool.and_eq_true, Bool.not_eq_true', Bool.or_eq_false_iff,
      decide_eq_false_iff_not]
    omega
  refine ⟨setDate initDate y m d, ?_, rfl, rfl, rfl, hc⟩
  unfold dateFromString
  rw [if_neg (by omega), hcut, htok]
  simp only [List.length_cons, List.length_nil, List.take_succ_cons, List.take_zero,
    List.drop_succ_cons, List.drop_zero, hY, hM, hD, hok]
  simp

example : dateFromString initDate "20200131_LEVEL2_LND08_BOA.tif".toList =
    .success (setDate initDate 2020 1 31) := by decide

/-- C05: whatever is accepted has a year in 1900..2099, a month in 1..12, a day in 1..31, and
was set by `set_date`. -/
theorem c05_accepted_in_range (date : DateT) (s : List Char) (r : DateT)
    (h : dateFromString date s = .success r) :
    1900 ≤ r.year ∧ r.year ≤ 2099 ∧ 1 ≤ r.month ∧ r.month ≤ 12 ∧ 1 ≤ r.day ∧ r.day ≤ 31 ∧
      r.ce = 365 * r.year + r.doy := by
  unfold dateFromString at h
  split at h
  · simp at h
  · split at h
    · simp at h
    · split at h
      · simp at h
      · dsimp only at h
        split at h
        · rename_i hok
          injection h with h
          subst h
          unfold rangeOk at hok
          simp only [Bool.and_eq_true, Bool.not_eq_true', Bool.or_eq_false_iff,
            decide_eq_false_iff_not] at hok
          have e : ∀ y m d, (setDate initDate y m d).ce =
            365 * (setDate initDate y m d).year + (setDate initDate y m d).doy := by
            intro y m d; simp [setDate, setYear, setMonthDay, doy2ce]; omega
          have e' := e (atoi (‹List Char›.take 4)) (atoi ((‹List Char›.drop 4).take 2))
            (atoi ((‹List Char›.drop 6).take 2))
          omega
        · simp at h

/-- C05 is violated: when the first word has eight characters but is no acceptable date, the
caller's record is left as it was instead of receiving the dummy date. -/
theorem c05_dummy_date_violated : ∃ (date : DateT) (s : List Char),
    dateFromString date s = .cancel date ∧ date ≠ initDate :=
  ⟨setDate initDate 2020 1 31, "20201331".toList, by decide⟩

/-- C05 is violated: days that do not exist are accepted. -/
theorem c05_invalid_day_accepted_violated : ∃ (s : List Char) (r : DateT),
    dateFromString initDate s = .success r ∧ ¬ ValidMD r.month r.day :=
  ⟨"20200231".toList, setDate initDate 2020 2 31, by decide, by
    simp [ValidMD, monthLength, monthLengths, setDate, setYear, setMonthDay]⟩

/-- C05 is violated: first words that are not numbers are accepted. -/
theorem c05_non_number_accepted_violated :
    dateFromString initDate "2020+1+1".toList = .success (setDate initDate 2020 1 1) := by decide

/-- C05 is violated: a string without a first word (empty, separators only, comment only)
dereferences a null pointer. -/
theorem c05_no_word_ub_violated (date : DateT) (s : List Char) (hs : ∀ c ∈ s, isSep c = true)
    (hlen : s.length < 1024) : dateFromString date s = .ub := by
  have hd : (s.takeWhile (fun c => !isCut c)).dropWhile isSep = [] := by
    rw [List.dropWhile_eq_nil_iff]
    intro c hc
    exact hs c ((List.takeWhile_sublist _).subset hc)
  unfold dateFromString firstToken
  rw [if_neg (by omega), hd]

/-- C05, what holds for rejection: if the first word does not have eight characters, the
dummy date is delivered with CANCEL. -/
theorem c05_rejected_partial (date : DateT) (s w : List Char) (hlen : s.length < 1024)
    (hw : firstToken (s.takeWhile (fun c => !isCut c)) = some w) (h8 : w.length ≠ 8) :
    dateFromString date s = .cancel initDate := by
  unfold dateFromString
  rw [if_neg (by omega), hw]
  simp [h8]

example : dateFromString (setDate initDate 2020 1 31) "BOA_2020".toList = .cancel initDate := by
  decide

/-! ## C06 -/

/-- Nominal number of seconds of a record: years of 365 days, months of 30 days. -/
def secondsOf (r : DateT) : Int :=
  r.year * (365 * 86400) + r.month * (30 * 86400) + r.day * 86400 + r.hh * 3600 + r.mm * 60 + r.ss

/-- C06 (partial): below 30 years (946080000 s) the decomposition is lossless and the fields
are in range (months are not carried into years). -/
theorem c06_seconds_partial (r : DateT) (s : Int) (h0 : 0 ≤ s) (h1 : s < 946080000) :
    secondsOf (setSecs r s) = s ∧ (setSecs r s).year = 0 ∧
    0 ≤ (setSecs r s).month ∧ 0 ≤ (setSecs r s).day ∧ (setSecs r s).day < 30 ∧
    0 ≤ (setSecs r s).hh ∧ (setSecs r s).hh < 24 ∧ 0 ≤ (setSecs r s).mm ∧ (setSecs r s).mm < 60 ∧
    0 ≤ (setSecs r s).ss ∧ (setSecs r s).ss < 60 := by
  simp only [setSecs, secondsOf, setTime, setDate, setYear, setMonthDay]
  have hn : ¬ s ≥ 946080000 := by omega
  simp only [hn, if_false]
  by_cases a : s ≥ 2592000
  all_goals simp only [a, if_true, if_false]
  all_goals (generalize hm : (if s ≥ 2592000 then s / 2592000 else 0) = m at *)
  all_goals grind

example : (setSecs initDate 93784).day = 1 ∧ (setSecs initDate 93784).hh = 2 ∧
    (setSecs initDate 93784).mm = 3 ∧ (setSecs initDate 93784).ss = 4 := by decide

/-- C06 is violated: from 30 years on, the "year" field counts units of 30 years. -/
theorem c06_seconds_violated : secondsOf (setSecs initDate 946080000) ≠ 946080000 := by decide

/-- C06: the exact behaviour for all second counts: one unit of the year field stands for
946080000 seconds, i.e. 30 years. -/
theorem c06_seconds_year_unit (r : DateT) (s : Int) (_h0 : 0 ≤ s) :
    secondsOf (setSecs r s) + (setSecs r s).year * (29 * 365 * 86400) = s := by
  simp only [setSecs, secondsOf, setTime, setDate, setYear, setMonthDay]
  by_cases b : s ≥ 946080000
  · simp only [b, if_true]; grind
  · simp only [b, if_false]; grind

end Verif.Date
