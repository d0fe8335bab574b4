import Verif.Tile.Lemmas

/-!
# Properties C16 - C18: the tiling scheme
-/

namespace Verif.Tile
open Spec

/-! ## C16 -/

/-- The search terminates, and reports a tile that contains the point, together with the
corner of that tile. -/
theorem c16_tile_contains_point (c : Cube) (hX : 0 < c.tileSizeX) (hY : 0 < c.tileSizeY) (x y : ℚ) :
    ∃ f, tileFind c x y = some f ∧ InTile c f.idx f.idy x y ∧
      f.tilex = left c f.idx ∧ f.tiley = top c f.idy := by
  obtain ⟨i, h1, h2⟩ := findX_spec c.originX c.tileSizeX x hX
  obtain ⟨j, h3, h4⟩ := findY_spec c.originY c.tileSizeY y hY
  refine ⟨⟨c.originX + i * c.tileSizeX, c.originY - j * c.tileSizeY, i, j⟩, ?_, ⟨?_, ?_⟩, rfl, rfl⟩
  · unfold tileFind; rw [h1, h3]; rfl
  · unfold left; push_cast
    rcases h2 with ⟨_, a, b⟩ | ⟨rfl, a, b⟩ | ⟨_, a, b⟩
    · exact ⟨by linarith, b⟩
    · push_cast; exact ⟨by linarith, by linarith⟩
    · exact ⟨a, by linarith⟩
  · unfold top; push_cast
    rcases h4 with ⟨_, a, b⟩ | ⟨rfl, a, b⟩ | ⟨_, a, b⟩
    · exact ⟨b, by linarith⟩
    · push_cast; exact ⟨by linarith, by linarith⟩
    · exact ⟨by linarith, a⟩

theorem strip_unique (o s x : ℚ) (hs : 0 < s) (i k : ℤ) (h1 : o + i * s < x) (h2 : x < o + (i + 1) * s)
    (h3 : o + k * s ≤ x) (h4 : x ≤ o + (k + 1) * s) : k = i := by
  have a : (k : ℚ) * s < (i + 1) * s := by linarith
  have b : (i : ℚ) * s < (k + 1) * s := by linarith
  have a' := lt_of_mul_lt_mul_right a hs.le
  have b' := lt_of_mul_lt_mul_right b hs.le
  have a'' : k < i + 1 := by exact_mod_cast a'
  have b'' : i < k + 1 := by exact_mod_cast b'
  omega

/-- A point in the interior of a tile is assigned to this tile, whatever the tile. -/
theorem c16_interior (c : Cube) (hX : 0 < c.tileSizeX) (hY : 0 < c.tileSizeY) (x y : ℚ) (i j : ℤ)
    (h : Inside c i j x y) : tileFind c x y = some ⟨left c i, top c j, i, j⟩ := by
  obtain ⟨f, hf, ⟨⟨h1, h2⟩, ⟨h3, h4⟩⟩, h5, h6⟩ := c16_tile_contains_point c hX hY x y
  obtain ⟨⟨g1, g2⟩, ⟨g3, g4⟩⟩ := h
  unfold left at h1 h2 g1 g2
  unfold top at h3 h4 g3 g4
  push_cast at h2 g2 h3 g3
  have ei : f.idx = i := strip_unique _ _ x hX i f.idx g1 g2 h1 h2
  have ej : f.idy = j := strip_unique (-c.originY) _ (-y) hY j f.idy (by linarith) (by linarith)
    (by linarith) (by linarith)
  rw [hf, Option.some.injEq]
  cases f
  simp only at h5 h6 ei ej
  subst ei ej
  rw [h5, h6]

/-- Every point off the tile edges lies in the interior of exactly one tile: tiles are
numbered without gaps. -/
theorem c16_unique_tile (c : Cube) (hX : 0 < c.tileSizeX) (hY : 0 < c.tileSizeY) (x y : ℚ)
    (hx : ∀ i, x ≠ left c i) (hy : ∀ j, y ≠ top c j) :
    ∃! t : ℤ × ℤ, Inside c t.1 t.2 x y := by
  obtain ⟨f, hf, ⟨⟨h1, h2⟩, ⟨h3, h4⟩⟩, _, _⟩ := c16_tile_contains_point c hX hY x y
  refine ⟨(f.idx, f.idy), ⟨⟨lt_of_le_of_ne h1 (Ne.symm (hx _)), lt_of_le_of_ne h2 (hx _)⟩,
    ⟨lt_of_le_of_ne h3 (Ne.symm (hy _)), lt_of_le_of_ne h4 (hy _)⟩⟩, ?_⟩
  rintro ⟨i, j⟩ h
  have := c16_interior c hX hY x y i j h
  rw [hf] at this
  simp only [Option.some.injEq] at this
  rw [this]

/-- The edge convention of the search is not uniform: right of the origin a left edge
belongs to the tile on its left; at and left of the origin it belongs to the tile on its
right. -/
theorem c16_edge_convention (c : Cube) (hX : 0 < c.tileSizeX) (hY : 0 < c.tileSizeY) (i : ℤ) (y : ℚ) :
    ∃ f, tileFind c (left c i) y = some f ∧ f.idx = if 0 < i then i - 1 else i := by
  obtain ⟨k, h1, h2⟩ := findX_spec c.originX c.tileSizeX (left c i) hX
  obtain ⟨j, h3, -⟩ := findY_spec c.originY c.tileSizeY y hY
  refine ⟨⟨c.originX + k * c.tileSizeX, c.originY - j * c.tileSizeY, k, j⟩, ?_, ?_⟩
  · unfold tileFind; rw [h1, h3]; rfl
  · unfold left at h2
    have conv : ∀ a b : ℤ, (a : ℚ) * c.tileSizeX < b * c.tileSizeX → a < b := by
      intro a b hab; exact_mod_cast lt_of_mul_lt_mul_right hab hX.le
    have conv' : ∀ a b : ℤ, (a : ℚ) * c.tileSizeX ≤ b * c.tileSizeX → a ≤ b := by
      intro a b hab; exact_mod_cast le_of_mul_le_mul_right hab hX
    show k = _
    rcases h2 with ⟨h0, a, b⟩ | ⟨h0, a, b⟩ | ⟨h0, a, b⟩
    · have := conv k i (by linarith)
      have := conv' i (k + 1) (by push_cast; linarith)
      rw [if_pos (by omega)]; omega
    · have := conv' 0 i (by push_cast; linarith)
      have := conv' i 1 (by push_cast; linarith)
      subst h0
      by_cases hi : 0 < i
      · rw [if_pos hi]; omega
      · rw [if_neg hi]; omega
    · have := conv' k i (by linarith)
      have := conv i (k + 1) (by push_cast; linarith)
      rw [if_neg (by omega)]; omega

/-- The precondition is needed: with a tile size of zero the search does not end. -/
theorem c16_needs_positive_size (c : Cube) (h : c.tileSizeX ≤ 0) (x y : ℚ) (hx : c.originX < x) :
    tileFind c x y = none := by
  unfold tileFind findX
  rw [if_pos hx, shiftUp_diverges _ _ _ h _ _ hx]; rfl

/-- A realistic datacube (30 km tiles, 10 m pixels). -/
def demo : Cube :=
  { originX := 4000000, originY := 3500000, tileSizeX := 30000, tileSizeY := 30000, resolution := 10 }

example : tileFind demo 4075005 3390017 = some ⟨4060000, 3410000, 2, 3⟩ := by
  have := c16_interior demo (by decide) (by decide) 4075005 3390017 2 3
    (by unfold Inside left top demo; norm_num)
  rw [this]; unfold left top demo; norm_num

/-! ## C17 -/

theorem alignRight_spec (ulx res t : ℚ) (hr : 0 < res) (ht : t ≤ ulx) :
    ∃ k : ℤ, alignRight ulx res t = some (t + k * res) ∧
      ulx ≤ t + k * res ∧ t + k * res < ulx + res := by
  obtain ⟨n, hlt, hle⟩ := exists_steps res (ulx - t) hr
  refine ⟨n, ?_, ?_, ?_⟩
  · rw [alignRight_eq ulx res n t (fun k hk => by have := hlt k hk; linarith) (by linarith)]
    push_cast; rfl
  · push_cast; linarith
  · rcases Nat.eq_zero_or_pos n with h | h
    · subst h; push_cast; linarith
    · have := hlt (n - 1) (by omega)
      rw [Nat.cast_sub (by omega)] at this
      push_cast at this ⊢; linarith

theorem alignDown_spec (uly res t : ℚ) (hr : 0 < res) (ht : uly ≤ t) :
    ∃ k : ℤ, alignDown uly res t = some (t - k * res) ∧
      t - k * res ≤ uly ∧ uly - res < t - k * res := by
  obtain ⟨n, hlt, hle⟩ := exists_steps res (t - uly) hr
  refine ⟨n, ?_, ?_, ?_⟩
  · rw [alignDown_eq uly res n t (fun k hk => by have := hlt k hk; linarith) (by linarith)]
    push_cast; rfl
  · push_cast; linarith
  · rcases Nat.eq_zero_or_pos n with h | h
    · subst h; push_cast; linarith
    · have := hlt (n - 1) (by omega)
      rw [Nat.cast_sub (by omega)] at this
      push_cast at this ⊢; linarith

/-- The aligned corner is a grid point to the upper left of the given corner, at most one
pixel away in each direction. Missing from the full property: 'less than one pixel', which
is false for corners that are on the grid already (`c17_on_grid_violated`). -/
theorem c17_align_partial (c : Cube) (hX : 0 < c.tileSizeX) (hY : 0 < c.tileSizeY)
    (hr : 0 < c.resolution) (hp : WholePixels c) (ulx uly : ℚ) :
    ∃ nx ny, tileAlign c ulx uly = some (nx, ny) ∧ OnGrid c nx ny ∧
      (nx < ulx ∧ ulx ≤ nx + c.resolution) ∧ (uly < ny ∧ ny ≤ uly + c.resolution) := by
  obtain ⟨f, hf, ⟨⟨h1, h2⟩, ⟨h3, h4⟩⟩, h5, h6⟩ := c16_tile_contains_point c hX hY ulx uly
  obtain ⟨⟨mx, hmx⟩, ⟨my, hmy⟩⟩ := hp
  obtain ⟨kx, ax, bx, cx⟩ := alignRight_spec ulx c.resolution f.tilex hr (by rw [h5]; exact h1)
  obtain ⟨ky, ay, by', cy⟩ := alignDown_spec uly c.resolution f.tiley hr (by rw [h6]; exact h4)
  refine ⟨f.tilex + kx * c.resolution - c.resolution, f.tiley - ky * c.resolution + c.resolution,
    ?_, ⟨⟨f.idx * mx + kx - 1, ?_⟩, ⟨f.idy * my + ky - 1, ?_⟩⟩, ⟨?_, ?_⟩, ⟨?_, ?_⟩⟩
  · unfold tileAlign
    rw [hf]
    simp only [Option.bind_some, ax, ay]
  · rw [h5]; unfold left; push_cast; rw [hmx]; ring
  · rw [h6]; unfold top; push_cast; rw [hmy]; ring
  · linarith
  · linarith
  · linarith
  · linarith

/-- Corners that are not on the grid are moved by less than one pixel. -/
theorem c17_off_grid_partial (c : Cube) (hX : 0 < c.tileSizeX) (hY : 0 < c.tileSizeY)
    (hr : 0 < c.resolution) (hp : WholePixels c) (ulx uly : ℚ)
    (hx : ∀ k : ℤ, ulx ≠ c.originX + k * c.resolution)
    (hy : ∀ k : ℤ, uly ≠ c.originY - k * c.resolution) :
    ∃ nx ny, tileAlign c ulx uly = some (nx, ny) ∧ OnGrid c nx ny ∧
      (nx < ulx ∧ ulx < nx + c.resolution) ∧ (uly < ny ∧ ny < uly + c.resolution) := by
  obtain ⟨nx, ny, h, ⟨⟨kx, hkx⟩, ⟨ky, hky⟩⟩, ⟨a, b⟩, ⟨d, e⟩⟩ := c17_align_partial c hX hY hr hp ulx uly
  refine ⟨nx, ny, h, ⟨⟨kx, hkx⟩, ⟨ky, hky⟩⟩, ⟨a, lt_of_le_of_ne b ?_⟩, ⟨d, lt_of_le_of_ne e ?_⟩⟩
  · rw [hkx]; intro heq; exact hx (kx + 1) (by rw [heq]; push_cast; ring)
  · rw [hky]; intro heq; exact hy (ky + 1) (by push_cast; linarith)

/-- The code disagrees with the property for every corner that is already on the grid:
it is moved by a full pixel in both directions. -/
theorem c17_on_grid_violated (c : Cube) (hX : 0 < c.tileSizeX) (hY : 0 < c.tileSizeY)
    (hr : 0 < c.resolution) (hp : WholePixels c) (ulx uly : ℚ) (hg : OnGrid c ulx uly) :
    tileAlign c ulx uly = some (ulx - c.resolution, uly + c.resolution) := by
  obtain ⟨nx, ny, h, ⟨⟨kx, hkx⟩, ⟨ky, hky⟩⟩, ⟨a, b⟩, ⟨d, e⟩⟩ := c17_align_partial c hX hY hr hp ulx uly
  obtain ⟨⟨ux, hux⟩, ⟨uy, huy⟩⟩ := hg
  have conv : ∀ a b : ℤ, (a : ℚ) * c.resolution < b * c.resolution → a < b := by
    intro a b hab; exact_mod_cast lt_of_mul_lt_mul_right hab hr.le
  have conv' : ∀ a b : ℤ, (a : ℚ) * c.resolution ≤ b * c.resolution → a ≤ b := by
    intro a b hab; exact_mod_cast le_of_mul_le_mul_right hab hr
  have e1 : kx = ux - 1 := by
    have := conv kx ux (by linarith)
    have := conv' ux (kx + 1) (by push_cast; linarith)
    omega
  have e2 : ky = uy - 1 := by
    have := conv ky uy (by linarith)
    have := conv' uy (ky + 1) (by push_cast; linarith)
    omega
  rw [h, hkx, hky, e1, e2, hux, huy]
  push_cast
  simp only [Option.some.injEq, Prod.mk.injEq]
  constructor <;> ring

example : WholePixels demo ∧ OnGrid demo 4075000 3390010 :=
  ⟨⟨⟨3000, by norm_num [demo]⟩, ⟨3000, by norm_num [demo]⟩⟩,
   ⟨⟨7500, by norm_num [demo]⟩, ⟨10999, by norm_num [demo]⟩⟩⟩

example : (∀ k : ℤ, (4075005 : ℚ) ≠ demo.originX + k * demo.resolution) := by
  intro k h
  have : (4075005 : ℚ) = ((4000000 + k * 10 : ℤ) : ℚ) := by rw [h]; push_cast [demo]; rfl
  have : (4075005 : ℤ) = 4000000 + k * 10 := by exact_mod_cast this
  omega

/-! ## C18 -/

/-- The tiles to process are exactly the allowed ones of the extent, each once, row by
row. (`Pairwise Before` implies that no tile occurs twice, and fixes the order.) -/
theorem c18_active_tiles (file : Option (Option (List Char))) (e : Extent) (allow : List (ℤ × ℤ))
    (hread : tileReadlist file = some allow) (tiles : List (ℤ × ℤ))
    (h : tileActive file e = some tiles) :
    (∀ x y, (x, y) ∈ tiles ↔ InExtent e x y ∧ Allowed allow x y) ∧
    tiles.Pairwise Before ∧ tiles.Nodup := by
  unfold tileActive at h
  rw [hread] at h
  simp only [] at h
  split at h
  · simp at h
  · simp only [Option.some.injEq] at h
    subst h
    refine ⟨mem_activeTiles allow e, activeTiles_sorted allow e, ?_⟩
    refine List.Pairwise.imp ?_ (activeTiles_sorted allow e)
    rintro a b h rfl
    rcases h with h | h
    · omega
    · omega

/-- Failure is reported exactly if the allow-list is unreadable, or nothing is left. -/
theorem c18_failure (file : Option (Option (List Char))) (e : Extent) :
    tileActive file e = none ↔
      tileReadlist file = none ∨
      ∃ allow, tileReadlist file = some allow ∧ ∀ x y, InExtent e x y → ¬ Allowed allow x y := by
  unfold tileActive
  cases h : tileReadlist file with
  | none => simp
  | some allow =>
    simp only [Option.some.injEq, reduceCtorEq, false_or, exists_eq_left']
    constructor
    · intro hn x y h1 h2
      split at hn
      · rename_i hlen
        have : (x, y) ∈ activeTiles allow e := (mem_activeTiles allow e x y).2 ⟨h1, h2⟩
        rw [List.length_eq_zero_iff.1 hlen] at this
        simp at this
      · simp at hn
    · intro hn
      rw [if_pos]
      rw [List.length_eq_zero_iff, List.eq_nil_iff_forall_not_mem]
      rintro ⟨x, y⟩ hm
      obtain ⟨h1, h2⟩ := (mem_activeTiles allow e x y).1 hm
      exact hn x y h1 h2

/-- All writes stay inside the array, which has one cell per tile of the extent. -/
theorem c18_in_bounds (file : Option (Option (List Char))) (e : Extent) (hX : e.minX ≤ e.maxX + 1)
    (hY : e.minY ≤ e.maxY + 1) (tiles : List (ℤ × ℤ)) (h : tileActive file e = some tiles) :
    (tiles.length : ℤ) ≤ e.cells := by
  unfold tileActive at h
  cases hr : tileReadlist file with
  | none => rw [hr] at h; simp at h
  | some allow =>
    rw [hr] at h
    simp only [] at h
    split at h
    · simp at h
    · simp only [Option.some.injEq] at h
      subst h
      exact activeTiles_length allow e hX hY

/-- Without an allow-list every tile is allowed. -/
theorem c18_no_list : tileReadlist none = some [] := rfl

/-- An allow-list file in the documented format is read as the tiles it names. The tile
numbers must fit into the four characters of the format. -/
theorem c18_readlist (tiles : List (ℤ × ℤ)) (count : List Char) (hne : tiles ≠ [])
    (hcount : count = Libc.decDigits tiles.length) (hlen : count.length < 1000)
    (h : ∀ t ∈ tiles, (-1000 < t.1 ∧ t.1 < 10000) ∧ (-1000 < t.2 ∧ t.2 < 10000)) :
    tileReadlist (some (some (allowFile count tiles))) = some tiles := by
  have hdig : ∀ c ∈ count, c.isDigit = true := by subst hcount; exact Libc.decDigits_isDigit _
  have hnl : '\n' ∉ count := fun hm => by have := hdig _ hm; revert this; decide
  have hnul : '\x00' ∉ count ++ ['\n'] := by
    rw [List.mem_append, not_or]
    exact ⟨fun hm => by have := hdig _ hm; revert this; decide, by decide⟩
  have hnames := Libc.fgetsAll_lines 1024 (tiles.map tileName) (by
    intro l hl
    rw [List.mem_map] at hl
    obtain ⟨t, ht, rfl⟩ := hl
    exact ⟨tileName_noNul t _ (by decide) (by decide) (by decide) (by decide) (by decide),
      by rw [tileName_length t (h t ht).1 (h t ht).2]; omega⟩)
  rw [List.flatMap_map, List.map_map] at hnames
  unfold tileReadlist allowFile
  simp only []
  rw [Libc.fgetsAll_line 1024 count _ hnl (by omega), hnames]
  simp only []
  rw [cstr_store _ _ 0 (by simp) hnul, List.drop_zero,
    Libc.atoi_digits count hdig (by subst hcount; exact Libc.decDigits_ne_nil _) ['\n']
      (by intro c hc; simp at hc; subst hc; decide)]
  have hk : Libc.natVal count = tiles.length := by subst hcount; exact Libc.natVal_decDigits _
  have hpos : 0 < tiles.length := List.length_pos_iff.2 hne
  rw [hk, if_neg (by omega)]
  exact readIds_names tiles _ h

theorem readIds_short (k : Nat) (buffer : List Char) (lines : List (List Char))
    (h : lines.length < k) : readIds k buffer lines = none := by
  induction k generalizing buffer lines with
  | zero => omega
  | succ k ih =>
    cases lines with
    | nil => rfl
    | cons l lines =>
      simp only [readIds]
      rw [ih _ _ (by simpa using h)]
      rfl

/-- C18: an allow-list file is refused if it announces no tiles or more tiles than it names; so are
a missing and an empty file. -/
theorem c18_bad_list (tiles : List (ℤ × ℤ)) (n : Nat) (hlen : (Libc.decDigits n).length < 1000)
    (h : ∀ t ∈ tiles, (-1000 < t.1 ∧ t.1 < 10000) ∧ (-1000 < t.2 ∧ t.2 < 10000))
    (hn : n = 0 ∨ tiles.length < n) :
    tileReadlist (some (some (allowFile (Libc.decDigits n) tiles))) = none ∧
    tileReadlist (some none) = none ∧ tileReadlist (some (some [])) = none := by
  refine ⟨?_, rfl, rfl⟩
  have hdig := Libc.decDigits_isDigit n
  have hnl : '\n' ∉ Libc.decDigits n := fun hm => by have := hdig _ hm; revert this; decide
  have hnul : '\x00' ∉ Libc.decDigits n ++ ['\n'] := by
    rw [List.mem_append, not_or]
    exact ⟨fun hm => by have := hdig _ hm; revert this; decide, by decide⟩
  have hnames := Libc.fgetsAll_lines 1024 (tiles.map tileName) (by
    intro l hl
    rw [List.mem_map] at hl
    obtain ⟨t, ht, rfl⟩ := hl
    exact ⟨tileName_noNul t _ (by decide) (by decide) (by decide) (by decide) (by decide),
      by rw [tileName_length t (h t ht).1 (h t ht).2]; omega⟩)
  rw [List.flatMap_map, List.map_map] at hnames
  unfold tileReadlist allowFile
  simp only []
  rw [Libc.fgetsAll_line 1024 _ _ hnl (by omega), hnames]
  simp only []
  rw [cstr_store _ _ 0 (by simp) hnul, List.drop_zero,
    Libc.atoi_digits _ hdig (Libc.decDigits_ne_nil _) ['\n']
      (by intro c hc; simp at hc; subst hc; decide), Libc.natVal_decDigits]
  split
  · rfl
  · apply readIds_short
    simp only [List.length_map]
    omega

/-- A limit of the format: a tile number with five characters is misread. -/
theorem c18_five_characters :
    tileReadlist (some (some (allowFile ['1'] [(12345, 1)]))) ≠ some [(12345, 1)] := by decide +kernel

example : tileReadlist (some (some "3\nX0012_Y0034\nX-001_Y0002\nX0013_Y0034\n".toList))
    = some [(12, 34), (-1, 2), (13, 34)] := by decide +kernel

example : tileActive (some (some "3\nX0012_Y0034\nX-001_Y0002\nX0013_Y0034\n".toList))
    ⟨10, 13, 33, 35⟩ = some [(12, 34), (13, 34)] := by decide +kernel

end Verif.Tile
