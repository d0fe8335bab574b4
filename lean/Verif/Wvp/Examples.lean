import Verif.Wvp.DayProps
import Verif.Wvp.GranuleProps
import Verif.Wvp.AvgProps
import Verif.Wvp.ImageProps
import Mathlib.Tactic.IntervalCases

/-!
# Examples: the hypotheses of the theorems are met
-/

namespace Verif.Wvp

open Verif.Wvp.Spec
open Verif.Str (Out)
open Verif.Float (Nearest)

/-! ## C140 -/

/-- Daylight saving time from April to October (whole months, for the example). -/
def summer (a : Day) (_ : Int) : Bool := 4 ≤ a.m && a.m ≤ 10

theorem d1 : IsDate ⟨2020, 2, 27⟩ := ⟨by decide, by decide, by decide, Or.inr (Or.inr (Or.inl ⟨rfl, by decide⟩))⟩
theorem d2 : IsDate ⟨2020, 2, 29⟩ := ⟨by decide, by decide, by decide, Or.inr (Or.inr (Or.inr ⟨rfl, rfl, by unfold Leap; decide⟩))⟩
theorem d3 : IsDate ⟨2020, 3, 2⟩ := ⟨by decide, by decide, by decide, Or.inl ⟨by decide, by decide⟩⟩

example : NextDay ⟨2020, 2, 29⟩ (datePlus summer (15, false) ⟨2020, 2, 29⟩) := c140_next_partial summer (15, false) (Or.inl (by decide)) _ d2
example : datePlus summer (15, false) ⟨2020, 2, 29⟩ = ⟨2020, 3, 1⟩ := by decide
example : ∃ l N, AllDays ⟨2020, 2, 27⟩ ⟨2020, 3, 2⟩ l ∧ ∀ f, N ≤ f → loop summer (fun _ => (15, false)) ⟨2020, 3, 2⟩ f 0 ⟨2020, 2, 27⟩ = some l :=
  c140_days_partial summer _ (fun _ => Or.inl (by decide)) _ _ d1 d3 (by unfold Before; decide)
example : loop summer (fun _ => (15, false)) ⟨2020, 3, 2⟩ 10 0 ⟨2020, 2, 27⟩ =
    some [⟨2020, 2, 27⟩, ⟨2020, 2, 28⟩, ⟨2020, 2, 29⟩, ⟨2020, 3, 1⟩, ⟨2020, 3, 2⟩] := by decide
example : parseRange ⟨2020, 3, 2⟩ (eight ⟨2020, 2, 27⟩ ++ ',' :: eight ⟨2020, 2, 29⟩) = some (⟨2020, 2, 27⟩, ⟨2020, 2, 29⟩) :=
  c140_accepted _ _ _ ',' d3 d1 d2 (by decide) (by decide) (by unfold Before; decide) (by unfold Before; decide)
/-- C140, violated: hypotheses. -/
example : parseRange ⟨2020, 3, 2⟩ (eight ⟨2016, 3, 1⟩ ++ ',' :: eight ⟨2016, 2, 29⟩) = some (⟨2016, 3, 1⟩, ⟨2016, 2, 29⟩) ∧
    ∀ f, loop summer (fun _ => (15, false)) ⟨2016, 2, 29⟩ f 0 ⟨2016, 3, 1⟩ = none :=
  c140_leap_violated _ 2016 ',' (by decide) d3 (by unfold Before; decide) summer _ (fun _ => by decide)
example := c140_missing_day_violated ⟨2020, 3, 2⟩ ⟨2019, 1, 5⟩ 2019 ',' (by decide) (by decide) d3
  ⟨by decide, by decide, by decide, Or.inl ⟨by decide, by decide⟩⟩ (by decide) (by unfold Before; decide) summer (fun _ => (15, false)) (fun _ => by decide)
theorem j1 : IsDate ⟨2020, 7, 1⟩ := ⟨by decide, by decide, by decide, Or.inl ⟨by decide, by decide⟩⟩
theorem j2 : IsDate ⟨2020, 7, 2⟩ := ⟨by decide, by decide, by decide, Or.inl ⟨by decide, by decide⟩⟩
theorem j3 : IsDate ⟨2020, 1, 5⟩ := ⟨by decide, by decide, by decide, Or.inl ⟨by decide, by decide⟩⟩
example : datePlus summer (23, false) ⟨2020, 7, 1⟩ = ⟨2020, 7, 3⟩ := by
  have h1 := c140_next_partial summer (15, true) (Or.inl (by decide)) _ j1
  have h2 := c140_next_partial summer (15, true) (Or.inl (by decide)) _ j2
  exact c140_skipped_violated summer ⟨2020, 7, 1⟩ ⟨2020, 7, 2⟩ ⟨2020, 7, 3⟩ j1 h1 h2 (by decide)
example : datePlus summer (0, true) ⟨2020, 1, 6⟩ = ⟨2020, 1, 6⟩ := by
  have h1 := c140_next_partial summer (15, false) (Or.inl (by decide)) _ j3
  exact c140_repeated_violated summer ⟨2020, 1, 5⟩ ⟨2020, 1, 6⟩ j3 h1 (by decide)

/-! ## C141 -/

/-- A granule across the date line (170 to 190 degrees), given as Aqua granule. -/
def truth : Ring := ⟨![170, 190, 190, 170], ![60, 60, 40, 40]⟩
def table : Line := ⟨true, 170, -170, 60, 40, ⟨![-170, 170, 170, -170], ![40, 40, 60, 60]⟩⟩

theorem table_describes : Describes table truth := by
  refine ⟨by unfold Ordered; decide +kernel, ?_, ?_, ![-1, 0, 0, -1], Or.inr ?_⟩
  · intro i j; fin_cases i <;> fin_cases j <;> simp [truth] <;> norm_num [abs_lt]
  · intro g; fin_cases g <;> simp [table] <;> norm_num [abs_le]
  · intro g; fin_cases g <;> simp [table, truth] <;> norm_num

theorem table_usable : Usable table := by
  unfold Usable table
  norm_num [abs_le]

example := (c141_corners table).2 truth table_usable table_describes
/-- A location on the other side of the date line. -/
example : granules 50 (-175) ([table].map geometa) = [0] := by decide +kernel
example := c141_granules [table] (fun _ => truth) (by
  intro i l h hu
  have : l = table := by
    have := List.mem_of_getElem? h
    simpa using this
  rw [this]; exact table_describes) 50 (-175) (by norm_num)

/-! ## C142, C143 -/

/-- A granule of ten by ten pixels at 50 degrees north and 10 degrees east; the pixels of the first row are clear. -/
def small (clear : Nat) : Granule := ⟨10, 10, 2, 2, 0, 0, fun i => 1000 + i, fun i => if i < clear then 20 else 0, fun _ => 50, fun _ => 10, -9999, 0, 1 / 1000⟩

theorem small_covered (n : Nat) : Covered (small n) := by
  constructor <;> · intro x _ h; simp only [small] at *; omega

example := c142_average_partial 50 10 [small 10] (by intro g hg; simp at hg; subst hg; exact small_covered 10)
example : compile 50 10 [small 10] = .ok (2009 / 2000, 100) := by decide +kernel
example : compile 50 10 [small 9] = .ok (9999, 100) := by decide +kernel
/-- C142, violated: the hypothesis holds for two granules of 2030 rows. -/
example (g : Granule) : compile 50 10 [{ g with nx := 1354, ny := 2030, nxc := 270, nyc := 406, xoff := 2, yoff := 2 }] = .ub :=
  c142_swath_violated _ 203 (by norm_num) rfl rfl rfl rfl rfl rfl 50 10 []
example : compile 50 (359 / 2) [{ small 100 with lon := fun _ => -180 }] = .ok (9999, 0) :=
  c142_dateline_violated 50 _ (by norm_num) _ (by intro g hg; simp at hg; subst hg; exact small_covered 100) (by
    intro g hg i; simp at hg; subst hg; simp only [small]; norm_num [abs_le])
example : createLut 20050101 [(1, 100), (9999, 100), (2, 5), (9999, 0)] [(3, 90), (3, 90), (3, 90), (9999, 0)] =
    some [(1, "MOD"), (3, "MYD"), (3, "MYD"), (9999, "TBD")] := by decide +kernel
example := c143_table_partial 20050101 [(1, 100), (9999, 100)] [(3, 90), (3, 90)] rfl (by decide +kernel) (by decide +kernel)
/-- C143, violated: ten clear pixels for Terra, all for Aqua. -/
example : createLut 20050101 [(2009 / 2000, 100)] [(2099 / 2000, 100)] = some [(2009 / 2000, "MOD")] :=
  c143_choice_violated 50 10 20050101 (by decide) [small 10] [small 100] (by intro g hg; simp at hg; subst hg; exact small_covered 10)
    (by intro g hg; simp at hg; subst hg; exact small_covered 100) (by decide +kernel) (by decide +kernel) (2009 / 2000, 100) (2099 / 2000, 100)
    (by decide +kernel) (by decide +kernel) (by norm_num) (by norm_num)

/-! ## C144 -/

def places : List (ℚ × ℚ) := [(13, 52), (-70, -33)]
def measured : List (ℚ × List Char) := [(3 / 2, "MOD".toList), (9999, "TBD".toList)]

theorem places_ok : ∀ p ∈ places, |p.1| ≤ 360 ∧ |p.2| ≤ 360 := by decide +kernel
theorem measured_ok : ∀ v ∈ measured, (v.1 = 9999 ∨ 0 ≤ v.1 ∧ v.1 ≤ 100) ∧ IsName v.2 := by
  unfold IsName
  decide +kernel

example : String.ofList (writeLut places measured) = "13.0000 52.0000 1.500000 MOD\n-70.0000 -33.0000 9999.000000 TBD\n" := by decide +kernel
example : ∃ rd fl : ℚ → ℚ, (∀ x, Nearest 53 x (rd x)) ∧ (∀ x, Nearest 24 x (fl x)) ∧
    (∃ ws, readLut rd fl (writeLut places measured) places = .ok ws ∧ ws.length = 2) ∧
    readLut rd fl (writeLut places measured) [(13, 52), (-70, -33 + 1 / 1000)] = .exit ∧
    readLut rd fl (writeLut places measured) [(13, 52), (-70, -33), (0, 0)] = .exit := by
  obtain ⟨rd, hrd⟩ := Verif.Float.exists_round 53 (by norm_num)
  obtain ⟨fl, hfl⟩ := Verif.Float.exists_round 24 (by norm_num)
  refine ⟨rd, fl, hrd, hfl, ?_, ?_, ?_⟩
  · obtain ⟨ws, h1, h2, -⟩ := c144_roundtrip rd fl hrd hfl places measured rfl places_ok measured_ok
    exact ⟨ws, h1, h2⟩
  · exact c144_refused rd fl hrd hfl places _ measured rfl places_ok measured_ok (Or.inr ⟨1, (-70, -33), (-70, -33 + 1 / 1000), rfl, rfl, by norm_num⟩)
  · exact c144_refused rd fl hrd hfl places _ measured rfl places_ok measured_ok (Or.inl (by decide))
example (rd fl : ℚ → ℚ) : startCoords rd fl (some "13 52\n-70   -33.5\n".toList) = .ok (2, some
    [(fl (Verif.Libc.atof rd "13".toList), fl (Verif.Libc.atof rd "52\n".toList)), (fl (Verif.Libc.atof rd "-70".toList), fl (Verif.Libc.atof rd "-33.5\n".toList))]) := by
  have := c144_locations_partial rd fl [("13".toList, 0, "52".toList), ("-70".toList, 2, "-33.5".toList)] (by decide +kernel)
  exact this
example (rd fl : ℚ → ℚ) : startCoords rd fl (some "13,52\n-70 -33.5\n".toList) = .ub := by
  have := c144_separator_violated rd fl "13,52".toList (by decide +kernel) (by decide) ["-70 -33.5".toList] (by decide +kernel)
  exact this

/-! ## C145 -/

/-- Two days of July with values, one without value, one day without table and one of August. -/
noncomputable def julys : List (Nat × Option (Nat → ℝ)) :=
  [(7, some fun _ => 1), (7, some fun _ => 3), (7, some fun _ => 9999), (7, none), (8, some fun _ => 7)]

theorem july_values : monthValues julys 7 0 = [1, 3] := by
  simp [monthValues, julys]

example : (climFinal (climLoop julys 7 0)).1 = 2 ∧ (climFinal (climLoop julys 7 0)).2.1 = Real.sqrt 2 ∧ (climFinal (climLoop julys 7 0)).2.2 = 2 := by
  obtain ⟨h1, -, h2, -, h3⟩ := c145_climatology julys 7 0
  rw [july_values] at h1 h2 h3
  refine ⟨by rw [h2 (by simp)]; norm_num, ?_, h1⟩
  rw [h3 (by simp)]
  norm_num

/-! ## C146 -/

def site1 : Site := ⟨"13.0".toList, "52.0".toList, "1.5".toList, "MOD".toList⟩
def site2 : Site := ⟨"13.5".toList, "52.0".toList, "2.5".toList, "MYD".toList⟩

theorem site_good : site1.Good ∧ site2.Good := by
  constructor <;> (unfold Site.Good IsWord; decide +kernel)

theorem two_sites : Holds (some "13.0 52.0 1.5 MOD\n13.5 52.0 2.5 MYD\n".toList) [site1, site2] := by
  refine ⟨?_, Or.inr (by decide +kernel)⟩
  intro a ha
  simp only [List.mem_cons, List.not_mem_nil, or_false] at ha
  rcases ha with rfl | rfl
  exacts [site_good.1, site_good.2]

theorem no_sites : Holds none [] := ⟨by simp, Or.inl ⟨rfl, rfl⟩⟩

theorem second_closest : Closest id (134 / 10) 52 [site1, site2] 1 site2 := by
  have x1 : Verif.Libc.atof id site1.x = 13 := by decide +kernel
  have y1 : Verif.Libc.atof id site1.y = 52 := by decide +kernel
  have x2 : Verif.Libc.atof id site2.x = 27 / 2 := by decide +kernel
  have y2 : Verif.Libc.atof id site2.y = 52 := by decide +kernel
  have e1 : dist id (134 / 10) 52 site1 = 2 / 5 := by
    unfold dist; rw [x1, y1]
    rw [Real.sqrt_eq_iff_mul_self_eq (by norm_num) (by norm_num)]; norm_num
  have e2 : dist id (134 / 10) 52 site2 = 1 / 10 := by
    unfold dist; rw [x2, y2]
    rw [Real.sqrt_eq_iff_mul_self_eq (by norm_num) (by norm_num)]; norm_num
  refine ⟨rfl, by rw [e2]; norm_num, ?_⟩
  intro j b hb
  have hj : j < 2 := (List.getElem?_eq_some_iff.1 hb).1
  interval_cases j
  · simp at hb; subst hb; rw [e1, e2]; norm_num
  · simp at hb; subst hb; norm_num

/-- The value of the day, of the climatology (also in strict mode), and none. -/
example : waterVapour id id none false none (some "13.0 52.0 1.5 MOD\n13.5 52.0 2.5 MYD\n".toList) (134 / 10) 52 = .ok (5 / 2) := by
  have h := (c146_value_partial id id false none _ [] _ no_sites two_sites (134 / 10) 52).2.1 1 site2 second_closest
  have e : id (Verif.Libc.atof id site2.w) = (5 / 2 : ℚ) := by decide +kernel
  rw [e] at h
  exact h (by norm_num) (by norm_num)
example : waterVapour id id none true (some "13.0 52.0 1.5 MOD\n13.5 52.0 2.5 MYD\n".toList) none (134 / 10) 52 = .ok (5 / 2) := by
  have h := c146_strict_violated id id _ none _ [] two_sites no_sites (134 / 10) 52 (Or.inl (by intro a ha; simp at ha)) 1 site2 second_closest
  have e : id (Verif.Libc.atof id site2.w) = (5 / 2 : ℚ) := by decide +kernel
  rw [e] at h
  exact h (by norm_num)
example : waterVapour id id none false none none (134 / 10) 52 = .ok (-1) :=
  ((c146_value_partial id id false none none [] [] no_sites no_sites (134 / 10) 52).2.2 (Or.inl (by intro a ha; simp at ha))).2 (by intro a ha; simp at ha)
example := c146_strict_no_effect_violated id id _ none _ [] two_sites no_sites (134 / 10) 52 none (by
  intro a ha
  simp only [List.mem_cons, List.not_mem_nil, or_false] at ha
  rcases ha with rfl | rfl <;> decide +kernel)
/-- The same location without value in both tables. -/
def site3 : Site := ⟨"13.0".toList, "52.0".toList, "9999.0".toList, "TBD".toList⟩
theorem one_site : Holds (some "13.0 52.0 9999.0 TBD\n".toList) [site3] := by
  refine ⟨?_, Or.inr (by decide +kernel)⟩
  intro a ha
  simp only [List.mem_cons, List.not_mem_nil, or_false] at ha
  subst ha
  unfold Site.Good IsWord
  decide +kernel
theorem only_closest : Closest id 13 52 [site3] 0 site3 := by
  have x1 : Verif.Libc.atof id site3.x = 13 := by decide +kernel
  have y1 : Verif.Libc.atof id site3.y = 52 := by decide +kernel
  have e1 : dist id 13 52 site3 = 0 := by unfold dist; rw [x1, y1]; norm_num
  refine ⟨rfl, by rw [e1]; norm_num, ?_⟩
  intro j b hb
  have hj : j < 1 := (List.getElem?_eq_some_iff.1 hb).1
  interval_cases j
  simp at hb; subst hb; norm_num
example : waterVapour id id none true (some "13.0 52.0 9999.0 TBD\n".toList) (some "13.0 52.0 9999.0 TBD\n".toList) 13 52 = .ok 9999 :=
  c146_nodata_violated id id true _ _ _ _ one_site one_site 13 52 0 0 site3 site3 only_closest only_closest (by decide +kernel) (by decide +kernel)
/-- A location at 179.9 degrees east, an image at 179.9 degrees west. -/
def site4 : Site := ⟨"179.9".toList, "0.0".toList, "1.0".toList, "MOD".toList⟩
example : waterVapour id id none false none (some "179.9 0.0 1.0 MOD\n".toList) (-1799 / 10) 0 = .ok (-1) :=
  c146_dateline_violated id id false none _ [] [site4] no_sites (by
    refine ⟨?_, Or.inr (by decide +kernel)⟩
    intro a ha
    simp only [List.mem_cons, List.not_mem_nil, or_false] at ha
    subst ha
    unfold Site.Good IsWord
    decide +kernel) _ _ (by norm_num) (by
    intro a ha
    simp only [List.mem_cons, List.not_mem_nil, or_false, false_or] at ha
    subst ha
    decide +kernel)

-- c140_format: one digit too many
example : parseRange ⟨2020, 3, 2⟩ "20200227,202002290".toList = none := c140_format _ _ (by decide)

end Verif.Wvp
