import Verif.Wvp.GranuleSpec
import Mathlib.Tactic.Linarith
import Mathlib.Tactic.Ring
import Mathlib.Algebra.BigOperators.Group.List.Basic
import Mathlib.Algebra.Order.Field.Basic

/-!
# C142 and C143: average water vapour of a location
-/

namespace Verif.Wvp.Spec

open Verif.Wvp (Granule)

/-- The pixels (row, column) of a granule from the first geolocated line and column on. -/
def pixels (g : Granule) : List (Nat × Nat) :=
  (List.range' g.yoff (g.ny - g.yoff)).flatMap fun y => (List.range' g.xoff (g.nx - g.xoff)).map fun x => (y, x)

/-- Index of the geolocation of a pixel: one for five by five pixels. -/
def cell (g : Granule) (p : Nat × Nat) : Nat := g.nxc * ((p.1 - g.yoff) / 5) + (p.2 - g.xoff) / 5

/-- Every pixel has a geolocation. -/
def Covered (g : Granule) : Prop := (∀ x, g.xoff ≤ x → x < g.nx → (x - g.xoff) / 5 < g.nxc) ∧ (∀ y, g.yoff ≤ y → y < g.ny → (y - g.yoff) / 5 < g.nyc)

/-- The pixel lies in the frame. -/
def InBox (lat lon : ℚ) (g : Granule) (p : Nat × Nat) : Bool := |g.lon (cell g p) - lon| ≤ 3 / 4 && |g.lat (cell g p) - lat| ≤ 3 / 4

/-- The pixel has a value, and bits 2 and 4 of its quality are set (clear). -/
def Clear (g : Granule) (p : Nat × Nat) : Bool := g.pw (g.nx * p.1 + p.2) ≠ g.fill && (g.cld (g.nx * p.1 + p.2)).testBit 2 && (g.cld (g.nx * p.1 + p.2)).testBit 4

/-- Water vapour of a pixel. -/
def vapour (g : Granule) (p : Nat × Nat) : ℚ := g.vscl * (g.pw (g.nx * p.1 + p.2) - g.voff)

/-- Pixels of a granule in the frame. -/
def framePixels (lat lon : ℚ) (g : Granule) : List (Nat × Nat) := (pixels g).filter (InBox lat lon g)

/-- Values of the clear pixels in the frame, of all granules. -/
def clearValues (lat lon : ℚ) (gs : List Granule) : List ℚ := gs.flatMap fun g => ((framePixels lat lon g).filter (Clear g)).map (vapour g)

/-- Number of pixels in the frame, of all granules. -/
def frameCount (lat lon : ℚ) (gs : List Granule) : Nat := (gs.map fun g => (framePixels lat lon g).length).sum

end Verif.Wvp.Spec

namespace Verif.Wvp

open Verif.Wvp.Spec
open Verif.Str (Out)

/-- One pixel without undefined behaviour. -/
def pure1 (g : Granule) (f : Frame) (p : Nat × Nat) (a : Acc) : Acc :=
  if g.lon (cell g p) ≥ f.w ∧ g.lon (cell g p) ≤ f.e ∧ g.lat (cell g p) ≤ f.n ∧ g.lat (cell g p) ≥ f.s then
    ⟨if Clear g p then a.sum + vapour g p else a.sum, if Clear g p then a.ctr + 1 else a.ctr, a.all + 1⟩
  else a

theorem int2bit_eq (v k : Nat) : int2bit v k = v.testBit k := by
  unfold int2bit
  rw [Nat.testBit_eq_decide_div_mod_eq]

theorem onePixel_eq (g : Granule) (f : Frame) (y x : Nat) (a : Acc) :
    onePixel g f y x ((y - g.yoff) / 5) ((x - g.xoff) / 5) a =
      if cell g (y, x) ≥ g.nxc * g.nyc then .ub else .ok (pure1 g f (y, x) a) := by
  unfold onePixel pure1 cell Clear vapour
  simp only [int2bit_eq]
  by_cases h : g.nxc * ((y - g.yoff) / 5) + (x - g.xoff) / 5 ≥ g.nxc * g.nyc
  · rw [if_pos h, if_pos h]
  · rw [if_neg h, if_neg h]
    by_cases h2 : g.pw (g.nx * y + x) ≠ g.fill ∧ (g.cld (g.nx * y + x)).testBit 2 = true ∧ (g.cld (g.nx * y + x)).testBit 4 = true
    · obtain ⟨a1, a2, a3⟩ := h2
      simp only [a1, a2, a3, ne_eq, not_false_eq_true, and_self, if_true, decide_true, Bool.and_self]
      split_ifs <;> rfl
    · have : (decide (g.pw (g.nx * y + x) ≠ g.fill) && (g.cld (g.nx * y + x)).testBit 2 && (g.cld (g.nx * y + x)).testBit 4) = false := by
        cases hh : (decide (g.pw (g.nx * y + x) ≠ g.fill) && (g.cld (g.nx * y + x)).testBit 2 && (g.cld (g.nx * y + x)).testBit 4)
        · rfl
        · exfalso; apply h2
          simp only [Bool.and_eq_true, decide_eq_true_eq] at hh
          exact ⟨hh.1.1, hh.1.2, hh.2⟩
      rw [this]
      simp only [h2, if_false]
      split_ifs <;> simp_all

theorem cols_eq (g : Granule) (f : Frame) (y : Nat) :
    ∀ (r i : Nat) (a : Acc), cols g f y ((y - g.yoff) / 5) r (g.xoff + i) (i / 5) (i % 5 + 1) a =
      if ∃ x ∈ List.range' (g.xoff + i) r, cell g (y, x) ≥ g.nxc * g.nyc then .ub
      else .ok ((List.range' (g.xoff + i) r).foldl (fun a x => pure1 g f (y, x) a) a) := by
  intro r
  induction r with
  | zero => intro i a; simp [cols]
  | succ r ih =>
    intro i a
    unfold cols
    have e := onePixel_eq g f y (g.xoff + i) a
    rw [Nat.add_sub_cancel_left] at e
    rw [e]
    by_cases h : cell g (y, g.xoff + i) ≥ g.nxc * g.nyc
    · rw [if_pos h, if_pos ⟨g.xoff + i, by rw [List.range'_succ]; simp, h⟩]
      rfl
    · rw [if_neg h]
      have e2 : (if i % 5 + 1 ≥ 5 then cols g f y ((y - g.yoff) / 5) r (g.xoff + i + 1) (i / 5 + 1) 1 (pure1 g f (y, g.xoff + i) a)
          else cols g f y ((y - g.yoff) / 5) r (g.xoff + i + 1) (i / 5) (i % 5 + 1 + 1) (pure1 g f (y, g.xoff + i) a)) =
          cols g f y ((y - g.yoff) / 5) r (g.xoff + (i + 1)) ((i + 1) / 5) ((i + 1) % 5 + 1) (pure1 g f (y, g.xoff + i) a) := by
        by_cases h5 : i % 5 + 1 ≥ 5
        · rw [if_pos h5]
          have a1 : (i + 1) / 5 = i / 5 + 1 := by omega
          have a2 : (i + 1) % 5 + 1 = 1 := by omega
          rw [a1, a2]; rfl
        · rw [if_neg h5]
          have a1 : (i + 1) / 5 = i / 5 := by omega
          have a2 : (i + 1) % 5 + 1 = i % 5 + 1 + 1 := by omega
          rw [a1, a2]; rfl
      show (if i % 5 + 1 ≥ 5 then cols g f y ((y - g.yoff) / 5) r (g.xoff + i + 1) (i / 5 + 1) 1 (pure1 g f (y, g.xoff + i) a)
          else cols g f y ((y - g.yoff) / 5) r (g.xoff + i + 1) (i / 5) (i % 5 + 1 + 1) (pure1 g f (y, g.xoff + i) a)) = _
      rw [e2, ih (i + 1)]
      have hex : (∃ x ∈ List.range' (g.xoff + i) (r + 1), cell g (y, x) ≥ g.nxc * g.nyc) ↔ (∃ x ∈ List.range' (g.xoff + (i + 1)) r, cell g (y, x) ≥ g.nxc * g.nyc) := by
        rw [List.range'_succ]
        simp only [List.mem_cons, exists_eq_or_imp]
        constructor
        · rintro (hh | hh)
          · exact absurd hh h
          · exact hh
        · exact Or.inr
      simp only [hex]
      rw [List.range'_succ, List.foldl_cons]
      rfl

theorem rows_eq (g : Granule) (f : Frame) :
    ∀ (r i : Nat) (a : Acc), rows g f r (g.yoff + i) (i / 5) (i % 5 + 1) a =
      if ∃ y ∈ List.range' (g.yoff + i) r, ∃ x ∈ List.range' g.xoff (g.nx - g.xoff), cell g (y, x) ≥ g.nxc * g.nyc then .ub
      else .ok ((List.range' (g.yoff + i) r).foldl (fun a y => (List.range' g.xoff (g.nx - g.xoff)).foldl (fun a x => pure1 g f (y, x) a) a) a) := by
  intro r
  induction r with
  | zero => intro i a; simp [rows]
  | succ r ih =>
    intro i a
    unfold rows
    have e := cols_eq g f (g.yoff + i) (g.nx - g.xoff) 0 a
    rw [Nat.add_sub_cancel_left] at e
    simp only [Nat.add_zero, Nat.zero_div, Nat.zero_mod, Nat.zero_add] at e
    rw [e]
    by_cases h : ∃ x ∈ List.range' g.xoff (g.nx - g.xoff), cell g (g.yoff + i, x) ≥ g.nxc * g.nyc
    · rw [if_pos h, if_pos ⟨g.yoff + i, by rw [List.range'_succ]; simp, h⟩]
      rfl
    · rw [if_neg h]
      generalize ha' : (List.range' g.xoff (g.nx - g.xoff)).foldl (fun a x => pure1 g f (g.yoff + i, x) a) a = a'
      have e2 : (if i % 5 + 1 ≥ 5 then rows g f r (g.yoff + i + 1) (i / 5 + 1) 1 a'
          else rows g f r (g.yoff + i + 1) (i / 5) (i % 5 + 1 + 1) a') =
          rows g f r (g.yoff + (i + 1)) ((i + 1) / 5) ((i + 1) % 5 + 1) a' := by
        by_cases h5 : i % 5 + 1 ≥ 5
        · rw [if_pos h5]
          have a1 : (i + 1) / 5 = i / 5 + 1 := by omega
          have a2 : (i + 1) % 5 + 1 = 1 := by omega
          rw [a1, a2]; rfl
        · rw [if_neg h5]
          have a1 : (i + 1) / 5 = i / 5 := by omega
          have a2 : (i + 1) % 5 + 1 = i % 5 + 1 + 1 := by omega
          rw [a1, a2]; rfl
      show (if i % 5 + 1 ≥ 5 then rows g f r (g.yoff + i + 1) (i / 5 + 1) 1 a'
          else rows g f r (g.yoff + i + 1) (i / 5) (i % 5 + 1 + 1) a') = _
      rw [e2, ih (i + 1)]
      have hex : (∃ y ∈ List.range' (g.yoff + i) (r + 1), ∃ x ∈ List.range' g.xoff (g.nx - g.xoff), cell g (y, x) ≥ g.nxc * g.nyc) ↔
          (∃ y ∈ List.range' (g.yoff + (i + 1)) r, ∃ x ∈ List.range' g.xoff (g.nx - g.xoff), cell g (y, x) ≥ g.nxc * g.nyc) := by
        rw [List.range'_succ]
        simp only [List.mem_cons, exists_eq_or_imp]
        constructor
        · rintro (hh | hh)
          · exact absurd hh h
          · exact hh
        · exact Or.inr
      simp only [hex]
      rw [List.range'_succ, List.foldl_cons, ha']
      rfl

theorem mem_pixels (g : Granule) (p : Nat × Nat) : p ∈ pixels g ↔ g.yoff ≤ p.1 ∧ p.1 < g.ny ∧ g.xoff ≤ p.2 ∧ p.2 < g.nx := by
  unfold pixels
  rw [List.mem_flatMap]
  constructor
  · rintro ⟨y, h1, h2⟩
    rw [List.mem_map] at h2
    obtain ⟨x, h3, rfl⟩ := h2
    rw [List.mem_range'_1] at h1 h3
    simp only
    omega
  · rintro ⟨h1, h2, h3, h4⟩
    refine ⟨p.1, List.mem_range'_1.2 (by omega), List.mem_map.2 ⟨p.2, List.mem_range'_1.2 (by omega), rfl⟩⟩

theorem sumGranule_eq (g : Granule) (f : Frame) (a : Acc) :
    sumGranule g f a = if ∃ p ∈ pixels g, cell g p ≥ g.nxc * g.nyc then .ub else .ok ((pixels g).foldl (fun a p => pure1 g f p a) a) := by
  unfold sumGranule
  have e := rows_eq g f (g.ny - g.yoff) 0 a
  simp only [Nat.add_zero, Nat.zero_div, Nat.zero_mod, Nat.zero_add] at e
  rw [e]
  have hex : (∃ y ∈ List.range' g.yoff (g.ny - g.yoff), ∃ x ∈ List.range' g.xoff (g.nx - g.xoff), cell g (y, x) ≥ g.nxc * g.nyc) ↔
      ∃ p ∈ pixels g, cell g p ≥ g.nxc * g.nyc := by
    constructor
    · rintro ⟨y, h1, x, h2, h3⟩
      rw [List.mem_range'_1] at h1 h2
      exact ⟨(y, x), (mem_pixels g _).2 (by simp only; omega), h3⟩
    · rintro ⟨p, h1, h2⟩
      rw [mem_pixels] at h1
      exact ⟨p.1, List.mem_range'_1.2 (by omega), p.2, List.mem_range'_1.2 (by omega), h2⟩
  simp only [hex]
  split_ifs
  · rfl
  · congr 1
    unfold pixels
    rw [List.foldl_flatMap]
    simp only [List.foldl_map]

theorem covered_cell (g : Granule) (h : Covered g) : ¬ ∃ p ∈ pixels g, cell g p ≥ g.nxc * g.nyc := by
  rintro ⟨p, h1, h2⟩
  rw [mem_pixels] at h1
  have hx := h.1 p.2 h1.2.2.1 h1.2.2.2
  have hy := h.2 p.1 h1.1 h1.2.1
  unfold cell at h2
  generalize (p.1 - g.yoff) / 5 = yc at *
  generalize (p.2 - g.xoff) / 5 = xc at *
  have : g.nxc * (yc + 1) ≤ g.nxc * g.nyc := Nat.mul_le_mul_left _ hy
  rw [Nat.mul_add] at this
  omega

theorem frame_iff (lat lon : ℚ) (g : Granule) (p : Nat × Nat) :
    (g.lon (cell g p) ≥ lon - half ∧ g.lon (cell g p) ≤ lon + half ∧ g.lat (cell g p) ≤ lat + half ∧ g.lat (cell g p) ≥ lat - half) ↔ InBox lat lon g p = true := by
  unfold InBox half
  simp only [Bool.and_eq_true, decide_eq_true_eq, abs_le, ge_iff_le]
  constructor
  · rintro ⟨h1, h2, h3, h4⟩
    exact ⟨⟨by linarith, by linarith⟩, by linarith, by linarith⟩
  · rintro ⟨⟨h1, h2⟩, h3, h4⟩
    exact ⟨by linarith, by linarith, by linarith, by linarith⟩

theorem fold_pixels (lat lon : ℚ) (g : Granule) (l : List (Nat × Nat)) (a : Acc) :
    l.foldl (fun a p => pure1 g ⟨lon - half, lon + half, lat + half, lat - half⟩ p a) a =
      ⟨a.sum + (((l.filter (InBox lat lon g)).filter (Clear g)).map (vapour g)).sum, a.ctr + ((l.filter (InBox lat lon g)).filter (Clear g)).length,
        a.all + (l.filter (InBox lat lon g)).length⟩ := by
  induction l generalizing a with
  | nil => simp
  | cons p l ih =>
    rw [List.foldl_cons, ih]
    unfold pure1
    simp only [frame_iff]
    by_cases h : InBox lat lon g p = true
    · simp only [h, if_true, List.filter_cons_of_pos, List.length_cons]
      by_cases hc : Clear g p = true
      · simp only [hc, if_true, List.filter_cons_of_pos, List.length_cons, List.map_cons, List.sum_cons, Acc.mk.injEq]
        exact ⟨by ring, by omega, by omega⟩
      · simp only [hc, Bool.false_eq_true, if_false, not_false_eq_true, List.filter_cons_of_neg, Acc.mk.injEq]
        exact ⟨trivial, trivial, by omega⟩
    · simp only [h, Bool.false_eq_true, if_false, not_false_eq_true, List.filter_cons_of_neg]

theorem sumAll_eq (lat lon : ℚ) (gs : List Granule) (h : ∀ g ∈ gs, Covered g) (a : Acc) :
    sumAll ⟨lon - half, lon + half, lat + half, lat - half⟩ gs a =
      .ok ⟨a.sum + (clearValues lat lon gs).sum, a.ctr + (clearValues lat lon gs).length, a.all + frameCount lat lon gs⟩ := by
  induction gs generalizing a with
  | nil => simp [sumAll, clearValues, frameCount]
  | cons g gs ih =>
    unfold sumAll
    rw [sumGranule_eq, if_neg (covered_cell g (h g (by simp)))]
    show sumAll _ gs _ = _
    rw [ih (fun g' h' => h g' (by simp [h'])), fold_pixels]
    simp only [clearValues, frameCount, framePixels, List.flatMap_cons, List.sum_append, List.length_append, List.length_map, List.map_cons, List.sum_cons]
    simp only [Out.ok.injEq, Acc.mk.injEq]
    exact ⟨by ring, by omega, by omega⟩

/-- C142: the water vapour of a location is the mean of the clear pixels in its frame of 1.5 x 1.5 degrees, over all granules, if they are at least ten percent of the pixels in the frame, and 9999 otherwise (if every pixel has a geolocation). -/
theorem c142_average_partial (lat lon : ℚ) (gs : List Granule) (h : ∀ g ∈ gs, Covered g) :
    ∃ v, compile lat lon gs = .ok (v, frameCount lat lon gs) ∧
      (0 < frameCount lat lon gs → frameCount lat lon gs ≤ 10 * (clearValues lat lon gs).length → v = (clearValues lat lon gs).sum / (clearValues lat lon gs).length) ∧
      (¬ (0 < frameCount lat lon gs ∧ frameCount lat lon gs ≤ 10 * (clearValues lat lon gs).length) → v = 9999) := by
  unfold compile
  rw [sumAll_eq lat lon gs h]
  refine ⟨_, by simp only [Out.bind, Nat.zero_add, zero_add]; rfl, ?_⟩
  have key : ((frameCount lat lon gs > 0 ∧ (((clearValues lat lon gs).length : ℕ) : ℚ) ≥ (frameCount lat lon gs : ℚ) / 10)) ↔
      (0 < frameCount lat lon gs ∧ frameCount lat lon gs ≤ 10 * (clearValues lat lon gs).length) := by
    refine and_congr Iff.rfl ?_
    rw [ge_iff_le, div_le_iff₀ (by norm_num)]
    constructor
    · intro h
      have : (frameCount lat lon gs : ℚ) ≤ ((10 * (clearValues lat lon gs).length : ℕ) : ℚ) := by push_cast; linarith
      exact_mod_cast this
    · intro h
      have : (frameCount lat lon gs : ℚ) ≤ ((10 * (clearValues lat lon gs).length : ℕ) : ℚ) := by exact_mod_cast h
      push_cast at this; linarith
  unfold average
  simp only [key]
  constructor
  · intro h1 h2; rw [if_pos ⟨h1, h2⟩]
  · intro h1; rw [if_neg h1]

/-- C142, violated: with the image sizes of the MODIS product (1354 columns, 10 rows per scan, geolocation of 270 columns and one row for five, offset 2) the geolocation is read outside of its array, whatever the granule contains. -/
theorem c142_swath_violated (g : Granule) (n : Nat) (hn : 0 < n) (h1 : g.nx = 1354) (h2 : g.ny = 10 * n) (h3 : g.nxc = 270) (h4 : g.nyc = 2 * n)
    (h5 : g.xoff = 2) (h6 : g.yoff = 2) (lat lon : ℚ) (gs : List Granule) : compile lat lon (g :: gs) = .ub := by
  unfold compile sumAll
  rw [sumGranule_eq, if_pos]
  · rfl
  · refine ⟨(10 * n - 1, 1353), (mem_pixels g _).2 (by simp only; omega), ?_⟩
    unfold cell
    simp only [h3, h4, h5, h6]
    omega

/-- C142, violated: near the date line, pixels on its other side are not used: if all pixels of the granules lie in the frame of a location between 179.25 and 180 degrees east, but on the other side of the date line, the value is 9999. -/
theorem c142_dateline_violated (lat lon : ℚ) (hl : 179.25 ≤ lon ∧ lon ≤ 180) (gs : List Granule) (h : ∀ g ∈ gs, Covered g)
    (hg : ∀ g ∈ gs, ∀ i, -180 ≤ g.lon i ∧ |g.lon i + 360 - lon| ≤ 3 / 4 ∧ |g.lat i - lat| ≤ 3 / 4) : compile lat lon gs = .ok (9999, 0) := by
  have h0 : ∀ g ∈ gs, framePixels lat lon g = [] := by
    intro g hgm
    unfold framePixels
    rw [List.filter_eq_nil_iff]
    intro p _
    unfold InBox
    simp only [Bool.and_eq_true, decide_eq_true_eq, not_and]
    intro hc
    exfalso
    have e := hg g hgm (cell g p)
    rw [abs_le] at hc
    have e2 := abs_le.1 e.2.1
    linarith [hl.1, hl.2, hc.1, e2.2]
  have hf : frameCount lat lon gs = 0 := by
    unfold frameCount
    refine List.sum_eq_zero ?_
    intro x hx
    rw [List.mem_map] at hx
    obtain ⟨g, hgm, rfl⟩ := hx
    rw [h0 g hgm]; rfl
  obtain ⟨v, e, -, e2⟩ := c142_average_partial lat lon gs h
  rw [e, e2 (by omega), hf]

/-! ## The daily table -/

/-- Value and number of pixels of one sensor as used for the choice. -/
theorem choose_cases (aqua : Bool) (m y : ℚ × Nat) :
    (choose aqua 9999 "TBD" m y = if aqua = true ∧ y.1 < 9999 ∧ (9999 ≤ m.1 ∨ m.2 < y.2) then (y.1, "MYD")
      else if m.1 < 9999 then (m.1, "MOD") else if aqua = true then (9999, "TBD") else (m.1, "TBD")) := by
  unfold choose
  cases aqua with
  | false => simp only [Bool.false_eq_true, not_false_eq_true, if_true, false_and, if_false]; split_ifs <;> rfl
  | true =>
    simp only [not_true_eq_false, if_false, true_and, if_true, ge_iff_le]
    by_cases h1 : m.1 < 9999 <;> by_cases h2 : y.1 < 9999
    · have h3 : ¬ 9999 ≤ m.1 := not_le.2 h1
      simp only [h1, h2, h3, and_self, if_true, true_and, false_or]
      by_cases h4 : y.2 ≤ m.2
      · rw [if_pos h4, if_neg (by omega)]
      · rw [if_neg h4, if_pos (by omega)]
    · have h3 : 9999 ≤ y.1 := not_lt.1 h2
      simp [h1, h2, h3]
    · have h3 : 9999 ≤ m.1 := not_lt.1 h1
      simp [h1, h2, h3]
    · have h3 : 9999 ≤ y.1 := not_lt.1 h2
      simp [h1, h2, h3]

/-- C143: the table of a day has one line for each location, with the value of Terra or Aqua (Aqua only from 3 July 2002 on), whichever has a value, and of the one with more pixels in the frame if both have one (Terra if equal); 9999 and "TBD" if neither has one. No table is written if no location has a value. -/
theorem c143_table_partial (date : Int) (m y : List (ℚ × Nat)) (hlen : m.length = y.length) (hm : ∀ p ∈ m, p.1 ≤ 9999) (hy : ∀ p ∈ y, p.1 ≤ 9999) :
    (createLut date m y = none ↔ (∀ p ∈ m, p.1 = 9999) ∧ (20020703 ≤ date → ∀ p ∈ y, p.1 = 9999)) ∧
    ∀ l, createLut date m y = some l → l.length = m.length ∧ ∀ (i : Nat) (a b : ℚ × Nat), m[i]? = some a → y[i]? = some b →
      (a.1 = 9999 → b.1 = 9999 ∨ date < 20020703 → l[i]? = some (9999, "TBD")) ∧
      (a.1 ≠ 9999 → b.1 = 9999 ∨ date < 20020703 ∨ b.2 ≤ a.2 → l[i]? = some (a.1, "MOD")) ∧
      (b.1 ≠ 9999 → 20020703 ≤ date → a.1 = 9999 ∨ a.2 < b.2 → l[i]? = some (b.1, "MYD")) := by
  have one : ∀ (a b : ℚ × Nat), a.1 ≤ 9999 → b.1 ≤ 9999 → 
      (a.1 = 9999 → b.1 = 9999 ∨ date < 20020703 → choose (decide (date ≥ 20020703)) 9999 "TBD" a b = (9999, "TBD")) ∧
      (a.1 ≠ 9999 → b.1 = 9999 ∨ date < 20020703 ∨ b.2 ≤ a.2 → choose (decide (date ≥ 20020703)) 9999 "TBD" a b = (a.1, "MOD")) ∧
      (b.1 ≠ 9999 → 20020703 ≤ date → a.1 = 9999 ∨ a.2 < b.2 → choose (decide (date ≥ 20020703)) 9999 "TBD" a b = (b.1, "MYD")) := by
    intro a b ha hb
    rw [choose_cases]
    simp only [decide_eq_true_eq, ge_iff_le]
    refine ⟨?_, ?_, ?_⟩
    · intro h1 h2
      rw [if_neg (by
        rintro ⟨h3, h4, -⟩
        rcases h2 with h2 | h2
        · rw [h2] at h4; exact lt_irrefl _ h4
        · omega), if_neg (by rw [h1]; exact lt_irrefl _)]
      split_ifs
      · rfl
      · rw [h1]
    · intro h1 h2
      have h1' : a.1 < 9999 := lt_of_le_of_ne ha h1
      rw [if_neg (by
        rintro ⟨h3, h4, h5⟩
        rcases h2 with h2 | h2 | h2
        · rw [h2] at h4; exact lt_irrefl _ h4
        · omega
        · rcases h5 with h5 | h5
          · linarith
          · omega), if_pos h1']
    · intro h1 h2 h3
      have h1' : b.1 < 9999 := lt_of_le_of_ne hb h1
      rw [if_pos ⟨h2, h1', by
        rcases h3 with h3 | h3
        · left; rw [h3]
        · right; exact h3⟩]
  have valid : ∀ (a b : ℚ × Nat), a.1 ≤ 9999 → b.1 ≤ 9999 →
      ((choose (decide (date ≥ 20020703)) 9999 "TBD" a b).1 = 9999 ↔ a.1 = 9999 ∧ (20020703 ≤ date → b.1 = 9999)) := by
    intro a b ha hb
    obtain ⟨o1, o2, o3⟩ := one a b ha hb
    by_cases h1 : a.1 = 9999
    · by_cases h2 : b.1 = 9999 ∨ date < 20020703
      · rw [o1 h1 h2]
        simp only [h1, true_and, true_iff]
        intro h3
        rcases h2 with h2 | h2
        · exact h2
        · omega
      · push_neg at h2
        rw [o3 h2.1 h2.2 (Or.inl h1)]
        simp only [h1, true_and]
        constructor
        · intro h; exact absurd h h2.1
        · intro h; exact h h2.2
    · simp only [h1, false_and, iff_false]
      by_cases h2 : b.1 = 9999 ∨ date < 20020703 ∨ b.2 ≤ a.2
      · rw [o2 h1 h2]; exact h1
      · push_neg at h2
        rw [o3 h2.1 h2.2.1 (Or.inr h2.2.2)]; exact h2.1
  have mem1 : ∀ p ∈ m.zip y, p.1.1 ≤ 9999 ∧ p.2.1 ≤ 9999 := by
    intro p hp
    exact ⟨hm _ (List.of_mem_zip hp).1, hy _ (List.of_mem_zip hp).2⟩
  unfold createLut
  simp only
  constructor
  · rw [ite_eq_right_iff]
    simp only [reduceCtorEq, imp_false, gt_iff_lt, not_lt, Nat.le_zero, List.length_eq_zero_iff, List.filter_eq_nil_iff, List.mem_map,
      ne_eq, decide_not, Bool.not_eq_true', decide_eq_false_iff_not, not_not, forall_exists_index, and_imp, forall_apply_eq_imp_iff₂]
    constructor
    · intro h
      constructor
      · intro p hp
        obtain ⟨i, hi, e⟩ := List.getElem_of_mem hp
        have hz : (m[i], y[i]'(by omega)) ∈ m.zip y := by
          rw [List.mem_iff_getElem]
          exact ⟨i, by rw [List.length_zip]; omega, by rw [List.getElem_zip]⟩
        have := (valid _ _ (mem1 _ hz).1 (mem1 _ hz).2).1 (h _ hz)
        rw [← e]; exact this.1
      · intro hd p hp
        obtain ⟨i, hi, e⟩ := List.getElem_of_mem hp
        have hz : (m[i]'(by omega), y[i]) ∈ m.zip y := by
          rw [List.mem_iff_getElem]
          exact ⟨i, by rw [List.length_zip]; omega, by rw [List.getElem_zip]⟩
        have := (valid _ _ (mem1 _ hz).1 (mem1 _ hz).2).1 (h _ hz)
        rw [← e]; exact this.2 hd
    · rintro ⟨h1, h2⟩ p hp
      exact (valid _ _ (mem1 _ hp).1 (mem1 _ hp).2).2 ⟨h1 _ (List.of_mem_zip hp).1, fun hd => h2 hd _ (List.of_mem_zip hp).2⟩
  · intro l hl
    split_ifs at hl with hc
    simp only [Option.some.injEq] at hl
    subst hl
    refine ⟨by simp [hlen], ?_⟩
    intro i a b ha hb
    have hz : (m.zip y)[i]? = some (a, b) := by
      rw [List.getElem?_zip_eq_some]; exact ⟨ha, hb⟩
    rw [List.getElem?_map, hz]
    simp only [Option.map_some, Option.some.injEq]
    exact one a b (hm _ (List.mem_of_getElem? ha)) (hy _ (List.mem_of_getElem? hb))

/-- C143, violated: the documented choice is the sensor with more pixels used for averaging. Terra is used also if fewer pixels were averaged than for Aqua, whenever it has as many pixels in the frame (clear or not). -/
theorem c143_choice_violated (lat lon : ℚ) (date : Int) (hd : 20020703 ≤ date) (gm gy : List Granule) (h1 : ∀ g ∈ gm, Covered g) (h2 : ∀ g ∈ gy, Covered g)
    (_hfewer : (clearValues lat lon gm).length < (clearValues lat lon gy).length) (hall : frameCount lat lon gy ≤ frameCount lat lon gm)
    (m y : ℚ × Nat) (em : compile lat lon gm = .ok m) (ey : compile lat lon gy = .ok y) (hm : m.1 < 9999) (hy : y.1 < 9999) :
    createLut date [m] [y] = some [(m.1, "MOD")] := by
  obtain ⟨v, e, -⟩ := c142_average_partial lat lon gm h1
  obtain ⟨w, f, -⟩ := c142_average_partial lat lon gy h2
  rw [e] at em
  rw [f] at ey
  simp only [Out.ok.injEq] at em ey
  subst em
  subst ey
  simp only at hm hy
  have hm' : v ≠ 9999 := ne_of_lt hm
  have hc : choose (decide (date ≥ 20020703)) 9999 "TBD" (v, frameCount lat lon gm) (w, frameCount lat lon gy) = (v, "MOD") := by
    rw [choose_cases, if_neg, if_pos hm]
    rintro ⟨-, -, h | h⟩
    · simp only at h; linarith
    · simp only at h; omega
  unfold createLut
  simp only [List.zip_cons_cons, List.zip_nil_right, List.map_cons, List.map_nil, hc]
  simp [hm']

end Verif.Wvp
