import Verif.L2tile.Cut
import Verif.FloatErr
import Mathlib.Tactic.NormNum

/-! # Theorems on the extent of the tiles, and on the rounding of the offset -/

namespace Verif.L2tile

open Verif.Tile (Cube Extent tileFind findX findY)
open Verif.Tile.Spec (InExtent Inside)

theorem smallest_le (a b c d : ℤ) : smallest a b c d ≤ a ∧ smallest a b c d ≤ b ∧ smallest a b c d ≤ c ∧ smallest a b c d ≤ d := by
  unfold smallest
  simp only [List.foldl_cons, List.foldl_nil]
  split_ifs <;> omega

theorem largest_ge (a b c d : ℤ) : a ≤ largest a b c d ∧ b ≤ largest a b c d ∧ c ≤ largest a b c d ∧ d ≤ largest a b c d := by
  unfold largest
  simp only [List.foldl_cons, List.foldl_nil]
  split_ifs <;> omega

/-- The number of the tile does not decrease to the right. -/
theorem findX_mono (o s x x' : ℚ) (hs : 0 < s) (h : x ≤ x') (r r' : ℚ × ℤ) (hr : findX o s x = some r) (hr' : findX o s x' = some r') :
    r.2 ≤ r'.2 := by
  obtain ⟨i, h1, h2⟩ := Tile.findX_spec o s x hs
  obtain ⟨i', h1', h2'⟩ := Tile.findX_spec o s x' hs
  rw [h1] at hr
  rw [h1'] at hr'
  simp only [Option.some.injEq] at hr hr'
  subst hr hr'
  show i ≤ i'
  by_contra hlt
  have hlt : i' + 1 ≤ i := by omega
  have hq : ((i' : ℚ) + 1) * s ≤ i * s := mul_le_mul_of_nonneg_right (by exact_mod_cast hlt) hs.le
  rcases h2 with ⟨a, b, c⟩ | ⟨a, b, c⟩ | ⟨a, b, c⟩ <;> rcases h2' with ⟨a', b', c'⟩ | ⟨a', b', c'⟩ | ⟨a', b', c'⟩
  · linarith
  · subst a'; simp only [Int.cast_zero, zero_add, one_mul] at hq; linarith
  · linarith
  · omega
  · omega
  · subst a; simp only [Int.cast_zero, zero_mul] at hq; linarith
  · omega
  · omega
  · linarith

theorem findY_mono (o s y y' : ℚ) (hs : 0 < s) (h : y' ≤ y) (r r' : ℚ × ℤ) (hr : findY o s y = some r) (hr' : findY o s y' = some r') :
    r.2 ≤ r'.2 := by
  obtain ⟨i, h1, h2⟩ := Tile.findY_spec o s y hs
  obtain ⟨i', h1', h2'⟩ := Tile.findY_spec o s y' hs
  rw [h1] at hr
  rw [h1'] at hr'
  simp only [Option.some.injEq] at hr hr'
  subst hr hr'
  show i ≤ i'
  by_contra hlt
  have hlt : i' + 1 ≤ i := by omega
  have hq : ((i' : ℚ) + 1) * s ≤ i * s := mul_le_mul_of_nonneg_right (by exact_mod_cast hlt) hs.le
  rcases h2 with ⟨a, b, c⟩ | ⟨a, b, c⟩ | ⟨a, b, c⟩ <;> rcases h2' with ⟨a', b', c'⟩ | ⟨a', b', c'⟩ | ⟨a', b', c'⟩
  · linarith
  · subst a'; simp only [Int.cast_zero, zero_add, one_mul] at hq; linarith
  · linarith
  · omega
  · omega
  · subst a; simp only [Int.cast_zero, zero_mul] at hq; linarith
  · omega
  · omega
  · linarith

theorem tileFind_mono (c : Cube) (hX : 0 < c.tileSizeX) (hY : 0 < c.tileSizeY) (x y x' y' : ℚ) (f f' : Tile.Found)
    (hf : tileFind c x y = some f) (hf' : tileFind c x' y' = some f') :
    (x ≤ x' → f.idx ≤ f'.idx) ∧ (y' ≤ y → f.idy ≤ f'.idy) := by
  obtain ⟨i, h1, -⟩ := Tile.findX_spec c.originX c.tileSizeX x hX
  obtain ⟨i', h1', -⟩ := Tile.findX_spec c.originX c.tileSizeX x' hX
  obtain ⟨j, h2, -⟩ := Tile.findY_spec c.originY c.tileSizeY y hY
  obtain ⟨j', h2', -⟩ := Tile.findY_spec c.originY c.tileSizeY y' hY
  unfold tileFind at hf hf'
  rw [h1, h2] at hf
  rw [h1', h2'] at hf'
  simp only [Option.bind_some, Option.some.injEq] at hf hf'
  subst hf hf'
  exact ⟨fun h => findX_mono _ _ _ _ hX h _ _ h1 h1', fun h => findY_mono _ _ _ _ hY h _ _ h2 h2'⟩

/-- A value of a function that is linear in both arguments lies between its values at the corners. -/
theorem between (a b e x y x0 x1 y0 y1 : ℚ) (hx : x0 ≤ x ∧ x ≤ x1) (hy : y0 ≤ y ∧ y ≤ y1) :
    (∃ u v : Bool, a * (if u then x0 else x1) + b * (if v then y0 else y1) + e ≤ a * x + b * y + e) ∧
    (∃ u v : Bool, a * x + b * y + e ≤ a * (if u then x0 else x1) + b * (if v then y0 else y1) + e) := by
  have lo : ∀ a x x0 x1 : ℚ, x0 ≤ x → x ≤ x1 → ∃ u : Bool, a * (if u then x0 else x1) ≤ a * x := by
    intro a x x0 x1 h1 h2
    rcases le_total 0 a with h | h
    · exact ⟨true, by simpa using mul_le_mul_of_nonneg_left h1 h⟩
    · exact ⟨false, by simpa using mul_le_mul_of_nonpos_left h2 h⟩
  have hi : ∀ a x x0 x1 : ℚ, x0 ≤ x → x ≤ x1 → ∃ u : Bool, a * x ≤ a * (if u then x0 else x1) := by
    intro a x x0 x1 h1 h2
    rcases le_total 0 a with h | h
    · exact ⟨false, by simpa using mul_le_mul_of_nonneg_left h2 h⟩
    · exact ⟨true, by simpa using mul_le_mul_of_nonpos_left h1 h⟩
  obtain ⟨u, hu⟩ := lo a x x0 x1 hx.1 hx.2
  obtain ⟨v, hv⟩ := lo b y y0 y1 hy.1 hy.2
  obtain ⟨u', hu'⟩ := hi a x x0 x1 hx.1 hx.2
  obtain ⟨v', hv'⟩ := hi b y y0 y1 hy.1 hy.2
  exact ⟨⟨u, v, by linarith⟩, ⟨u', v', by linarith⟩⟩

/-- C105: if the transformation between the projections is affine, the extent contains the tile of each point of the image. -/
theorem c105_extent_partial (c : Cube) (hX : 0 < c.tileSizeX) (hY : 0 < c.tileSizeY) (a b e a' b' e' ulx uly width height : ℚ) (x y : ℚ)
    (hx : ulx ≤ x ∧ x ≤ ulx + width) (hy : uly - height ≤ y ∧ y ≤ uly) :
    ∃ t, startExtent c (fun p => (a * p.1 + b * p.2 + e, a' * p.1 + b' * p.2 + e')) ulx uly width height = some t ∧
      ∃ f, tileFind c (a * x + b * y + e) (a' * x + b' * y + e') = some f ∧ InExtent t f.idx f.idy := by
  have tot : ∀ x y, ∃ f, tileFind c x y = some f := fun x y => by
    obtain ⟨f, h, _⟩ := Tile.c16_tile_contains_point c hX hY x y
    exact ⟨f, h⟩
  obtain ⟨ul, h1⟩ := tot (a * ulx + b * uly + e) (a' * ulx + b' * uly + e')
  obtain ⟨ur, h2⟩ := tot (a * (ulx + width) + b * uly + e) (a' * (ulx + width) + b' * uly + e')
  obtain ⟨lr, h3⟩ := tot (a * (ulx + width) + b * (uly - height) + e) (a' * (ulx + width) + b' * (uly - height) + e')
  obtain ⟨ll, h4⟩ := tot (a * ulx + b * (uly - height) + e) (a' * ulx + b' * (uly - height) + e')
  obtain ⟨f, hf⟩ := tot (a * x + b * y + e) (a' * x + b' * y + e')
  have hs : startExtent c (fun p => (a * p.1 + b * p.2 + e, a' * p.1 + b' * p.2 + e')) ulx uly width height = some
      { minX := smallest ul.idx ur.idx lr.idx ll.idx, maxX := largest ul.idx ur.idx lr.idx ll.idx
        minY := smallest ul.idy ur.idy lr.idy ll.idy, maxY := largest ul.idy ur.idy lr.idy ll.idy } := by
    unfold startExtent
    simp only
    rw [h1, h2, h3, h4]
    rfl
  refine ⟨_, hs, f, hf, ⟨?_, ?_⟩, ?_, ?_⟩
  · obtain ⟨⟨u, v, h⟩, -⟩ := between a b e x y ulx (ulx + width) (uly - height) uly hx hy
    obtain ⟨s1, s2, s3, s4⟩ := smallest_le ul.idx ur.idx lr.idx ll.idx
    cases u <;> cases v <;> simp only [Bool.false_eq_true, if_true, if_false] at h
    · have := (tileFind_mono c hX hY _ _ _ _ _ _ h2 hf).1 h; simp only; omega
    · have := (tileFind_mono c hX hY _ _ _ _ _ _ h3 hf).1 h; simp only; omega
    · have := (tileFind_mono c hX hY _ _ _ _ _ _ h1 hf).1 h; simp only; omega
    · have := (tileFind_mono c hX hY _ _ _ _ _ _ h4 hf).1 h; simp only; omega
  · obtain ⟨-, ⟨u, v, h⟩⟩ := between a b e x y ulx (ulx + width) (uly - height) uly hx hy
    obtain ⟨s1, s2, s3, s4⟩ := largest_ge ul.idx ur.idx lr.idx ll.idx
    cases u <;> cases v <;> simp only [Bool.false_eq_true, if_true, if_false] at h
    · have := (tileFind_mono c hX hY _ _ _ _ _ _ hf h2).1 h; simp only; omega
    · have := (tileFind_mono c hX hY _ _ _ _ _ _ hf h3).1 h; simp only; omega
    · have := (tileFind_mono c hX hY _ _ _ _ _ _ hf h1).1 h; simp only; omega
    · have := (tileFind_mono c hX hY _ _ _ _ _ _ hf h4).1 h; simp only; omega
  · obtain ⟨-, ⟨u, v, h⟩⟩ := between a' b' e' x y ulx (ulx + width) (uly - height) uly hx hy
    obtain ⟨s1, s2, s3, s4⟩ := smallest_le ul.idy ur.idy lr.idy ll.idy
    cases u <;> cases v <;> simp only [Bool.false_eq_true, if_true, if_false] at h
    · have := (tileFind_mono c hX hY _ _ _ _ _ _ h2 hf).2 h; simp only; omega
    · have := (tileFind_mono c hX hY _ _ _ _ _ _ h3 hf).2 h; simp only; omega
    · have := (tileFind_mono c hX hY _ _ _ _ _ _ h1 hf).2 h; simp only; omega
    · have := (tileFind_mono c hX hY _ _ _ _ _ _ h4 hf).2 h; simp only; omega
  · obtain ⟨⟨u, v, h⟩, -⟩ := between a' b' e' x y ulx (ulx + width) (uly - height) uly hx hy
    obtain ⟨s1, s2, s3, s4⟩ := largest_ge ul.idy ur.idy lr.idy ll.idy
    cases u <;> cases v <;> simp only [Bool.false_eq_true, if_true, if_false] at h
    · have := (tileFind_mono c hX hY _ _ _ _ _ _ hf h2).2 h; simp only; omega
    · have := (tileFind_mono c hX hY _ _ _ _ _ _ hf h3).2 h; simp only; omega
    · have := (tileFind_mono c hX hY _ _ _ _ _ _ hf h1).2 h; simp only; omega
    · have := (tileFind_mono c hX hY _ _ _ _ _ _ hf h4).2 h; simp only; omega

/-- A transformation that keeps the corners of the image in place and raises its middle by `t`: edges become parabolas. -/
def bulge (width t : ℚ) (p : ℚ × ℚ) : ℚ × ℚ := (p.1, p.2 + 4 * t * p.1 * (width - p.1) / width ^ 2)

/-- C105, violated: edges of the image that are curved in the projection of the datacube leave the extent, which is made from the four
corners only: an image of any size in the first tile, of which the middle of the upper edge is in the tile above. -/
theorem c105_curved_violated (c : Cube) (hX : 0 < c.tileSizeX) (hY : 0 < c.tileSizeY) (hx : c.originX = 0) (hy : c.originY = 0)
    (width height t : ℚ) (hw : 0 < width ∧ width < c.tileSizeX) (hh : 0 < height ∧ height < c.tileSizeY)
    (top : ℚ) (htop : top < 0 ∧ -c.tileSizeY < top - height) (ht : 0 < top + t ∧ top + t < c.tileSizeY) :
    startExtent c (bulge width t) 0 top width height = some ⟨0, 0, 0, 0⟩ ∧
      ∃ f, tileFind c (bulge width t (width / 2, top)).1 (bulge width t (width / 2, top)).2 = some f ∧ ¬ InExtent ⟨0, 0, 0, 0⟩ f.idx f.idy := by
  have hw0 : width ≠ 0 := hw.1.ne'
  have xs : ∀ x, 0 ≤ x → x ≤ width → findX c.originX c.tileSizeX x = some (0, 0) := by
    intro x h1 h2
    obtain ⟨i, e1, e2⟩ := Tile.findX_spec c.originX c.tileSizeX x hX
    have hi : i = 0 := by
      rw [hx] at e2
      rcases e2 with ⟨a, b, _⟩ | ⟨a, _⟩ | ⟨a, _, b⟩
      · have : (1 : ℚ) ≤ i := by exact_mod_cast a
        nlinarith
      · exact a
      · have : (i : ℚ) + 1 ≤ 0 := by exact_mod_cast (by omega : i + 1 ≤ 0)
        nlinarith
    rw [e1, hi, hx]; simp
  have ys : ∀ y, y < 0 → -c.tileSizeY < y → findY c.originY c.tileSizeY y = some (0, 0) := by
    intro y h1 h2
    obtain ⟨i, e1, e2⟩ := Tile.findY_spec c.originY c.tileSizeY y hY
    have hi : i = 0 := by
      rw [hy] at e2
      rcases e2 with ⟨a, b, _⟩ | ⟨a, _⟩ | ⟨a, _, b⟩
      · have : (1 : ℚ) ≤ i := by exact_mod_cast a
        nlinarith
      · exact a
      · have : (i : ℚ) + 1 ≤ 0 := by exact_mod_cast (by omega : i + 1 ≤ 0)
        nlinarith
    rw [e1, hi, hy]; simp
  have corner : ∀ x y, (x = 0 ∨ x = width) → (y = top ∨ y = top - height) →
      tileFind c (bulge width t (x, y)).1 (bulge width t (x, y)).2 = some ⟨0, 0, 0, 0⟩ := by
    intro x y h1 h2
    have e1 : (bulge width t (x, y)).2 = y := by
      unfold bulge
      rcases h1 with rfl | rfl <;> simp
    have e2 : (bulge width t (x, y)).1 = x := rfl
    rw [e1, e2]
    unfold tileFind
    rw [xs x (by rcases h1 with rfl | rfl <;> linarith) (by rcases h1 with rfl | rfl <;> linarith),
      ys y (by rcases h2 with rfl | rfl <;> linarith) (by rcases h2 with rfl | rfl <;> linarith)]
    rfl
  constructor
  · unfold startExtent
    simp only [zero_add]
    rw [corner 0 top (Or.inl rfl) (Or.inl rfl), corner width top (Or.inr rfl) (Or.inl rfl),
      corner width (top - height) (Or.inr rfl) (Or.inr rfl), corner 0 (top - height) (Or.inl rfl) (Or.inr rfl)]
    rfl
  · have e1 : (bulge width t (width / 2, top)).2 = top + t := by
      unfold bulge; field_simp; ring
    rw [e1]
    obtain ⟨f, hf, ⟨-, h3, h4⟩, -, -⟩ := Tile.c16_tile_contains_point c hX hY (bulge width t (width / 2, top)).1 (top + t)
    refine ⟨f, hf, ?_⟩
    rintro ⟨-, h5, h6⟩
    simp only at h5 h6
    have : f.idy = 0 := by omega
    rw [this] at h4
    unfold Tile.Spec.top at h4
    rw [hy] at h4
    simp only [Int.cast_zero, zero_mul, sub_zero] at h4
    linarith [ht.1]

/-! ## Rounding -/

open Verif.Float

/-- cube-ll.c:128-129 in double precision: the difference and the quotient are rounded to nearest. -/
def FloatOffset (a b res : ℚ) (t : ℤ) : Prop := ∃ d q, Nearest 53 (a - b) d ∧ Nearest 53 (d / res) q ∧ t = ⌊q⌋

/-- C103: with coordinates and resolutions in whole metres, the offset is not affected by rounding. -/
theorem c103_whole (a b res : ℤ) (hr : 0 < res) (k : ℤ) (h : a - b = k * res) (hb : |a - b| ≤ 2 ^ 53) (t : ℤ) (ht : FloatOffset a b res t) :
    t = k ∧ (t : ℚ) = offset ((a : ℚ) - b) res := by
  obtain ⟨d, q, h1, h2, rfl⟩ := ht
  have e1 : d = ((a - b : ℤ) : ℚ) := by
    refine eq_of_nearest_rep (rep_int hb) ?_
    push_cast; exact h1
  have hr' : (res : ℚ) ≠ 0 := by exact_mod_cast hr.ne'
  have e2 : d / res = (k : ℚ) := by
    rw [e1, h]; push_cast; field_simp
  rw [e2] at h2
  have hk : |k| ≤ 2 ^ 53 := by
    have : |k| ≤ |k * res| := by
      rw [abs_mul]
      exact le_mul_of_one_le_right (abs_nonneg k) (by rw [abs_of_pos hr]; omega)
    rw [← h] at this
    omega
  have e3 : q = (k : ℚ) := eq_of_nearest_rep (rep_int hk) h2
  rw [e3]
  refine ⟨by simp, ?_⟩
  rw [← Int.cast_sub, h]
  push_cast
  rw [offset_mul k (by exact_mod_cast hr)]
  simp

/-- C103, violated: with resolutions that are no binary fractions, rounding shifts tiles by a pixel: tiles of 0.3 degrees with pixels of
0.1 degrees, the data start at the origin: the second tile starts at column 2 instead of 3. -/
theorem c103_rounding_violated (size res : ℚ) (hs : Nearest 53 (3 / 10) size) (hr : Nearest 53 (1 / 10) res) (t : ℤ)
    (ht : FloatOffset size 0 res t) : t = 2 ∧ offset ((3 : ℚ) / 10 - 0) (1 / 10) = 3 := by
  have e1 := nearest_unique_of_ge (by norm_num) hs 5404319552844595 (-54) (by norm_num) (by norm_num) (by norm_num [abs_lt, zpow_neg])
  have e2 := nearest_unique_of_ge (by norm_num) hr 7205759403792794 (-56) (by norm_num) (by norm_num) (by norm_num [abs_lt, zpow_neg])
  obtain ⟨d, q, h1, h2, rfl⟩ := ht
  rw [sub_zero] at h1
  have e3 : d = size := eq_of_nearest_rep hs.1 h1
  rw [e3, e1, e2] at h2
  have e4 := nearest_unique_of_ge (by norm_num) h2 6755399441055743 (-51) (by norm_num) (by norm_num) (by norm_num [abs_lt, zpow_neg])
  constructor
  · rw [e4, Int.floor_eq_iff]
    norm_num
  · unfold offset
    norm_num

end Verif.L2tile
