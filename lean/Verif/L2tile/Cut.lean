import Verif.L2tile.Spec
import Verif.Tile.Lemmas
import Verif.Tile.Props
import Mathlib.Tactic.Linarith
import Mathlib.Tactic.Ring
import Mathlib.Tactic.FieldSimp
import Mathlib.Tactic.LinearCombination

/-! # Theorems on the position of the data in the tiles -/

namespace Verif.L2tile

open Verif.Tile (Cube Extent loopRange tileAllowlisted)
open Verif.Tile.Spec (InExtent Allowed)

theorem offset_mul (k : ℤ) {res : ℚ} (h : 0 < res) : offset (k * res) res = k := by
  unfold offset
  rw [mul_div_assoc, div_self h.ne', mul_one]
  simp

theorem dim_self (c : Cube) (n : ℤ) (h : 0 < c.resolution) : dim c n c.resolution = n := by
  unfold dim
  rw [div_self h.ne', mul_one]
  simp

theorem mem_loopRange {lo hi t : ℤ} : t ∈ loopRange lo hi ↔ lo ≤ t ∧ t ≤ hi := by
  unfold loopRange
  simp only [List.mem_map, List.mem_range]
  constructor
  · rintro ⟨i, h, rfl⟩; omega
  · rintro ⟨h1, h2⟩
    exact ⟨(t - lo).toNat, by omega, by omega⟩

theorem allowlisted_iff (allow : List (ℤ × ℤ)) (x y : ℤ) : tileAllowlisted allow x y = true ↔ Allowed allow x y :=
  Tile.tileAllowlisted_iff allow x y

/-- The written tiles: those for which the computation for one tile gives a result. -/
theorem mem_tileLevel2 (c : Cube) (cols rows : ℤ) (e : Extent) (allow : List (ℤ × ℤ)) (d : Dataset) (maxtc : ℚ) (w : Written) :
    w ∈ tileLevel2 c cols rows e allow d maxtc ↔
      InExtent e w.tx w.ty ∧ tileOne c cols rows allow d maxtc w.tx w.ty = some w := by
  unfold tileLevel2
  simp only [List.mem_flatMap, List.mem_filterMap, mem_loopRange]
  have key : ∀ tx ty, tileOne c cols rows allow d maxtc tx ty = some w → w.tx = tx ∧ w.ty = ty := by
    intro tx ty h
    unfold tileOne at h
    split at h
    · simp at h
    · simp only at h
      split at h
      · simp at h
      · split at h
        · simp at h
        · simp only [Option.some.injEq] at h
          subst h; exact ⟨rfl, rfl⟩
  constructor
  · rintro ⟨ty, hy, tx, hx, h⟩
    obtain ⟨rfl, rfl⟩ := key _ _ h
    exact ⟨⟨hx, hy⟩, h⟩
  · rintro ⟨⟨hx, hy⟩, h⟩
    exact ⟨w.ty, hy, w.tx, hx, h⟩

theorem prods_of_mem {c : Cube} {cols rows : ℤ} {e : Extent} {allow : List (ℤ × ℤ)} {d : Dataset} {maxtc : ℚ} {w : Written}
    (h : w ∈ tileLevel2 c cols rows e allow d maxtc) : w.prods = (d.qai :: d.others).map (cut c cols rows d w.tx w.ty) := by
  have h := ((mem_tileLevel2 ..).1 h).2
  unfold tileOne at h
  split at h
  · simp at h
  · simp only at h
    split at h
    · simp at h
    · split at h
      · simp at h
      · simp only [Option.some.injEq] at h
        exact (congrArg Written.prods h).symm

theorem chip_eq (p : Product) (is js : ℤ) (b : Nat) (i j : ℤ) :
    (p.has (i + is) (j + js) → chip p is js b i j = p.value b (i + is) (j + js)) ∧
    (¬ p.has (i + is) (j + js) → chip p is js b i j = p.nodata b) := by
  unfold chip Product.has
  constructor
  · rintro ⟨⟨h1, h2⟩, h3, h4⟩
    rw [if_neg (by omega)]
  · intro h
    rw [if_pos (by omega)]

/-- C103: for datasets on the grid of the datacube, each product of a written tile that has the resolution of the datacube has the
size of the tile, its corner is the corner of the tile, and each of its pixels shows the pixel of the dataset at the same map
coordinates, and nodata where the dataset has none. -/
theorem c103_position_partial (c : Cube) (cols rows : ℤ) (e : Extent) (allow : List (ℤ × ℤ)) (d : Dataset) (maxtc : ℚ)
    (ha : Aligned c cols rows d) (w : Written) (hw : w ∈ tileLevel2 c cols rows e allow d maxtc)
    (n : Nat) (p : Product) (hp : (d.qai :: d.others)[n]? = some p) (hres : p.res = c.resolution) :
    ∃ o : Chip, w.prods[n]? = some o ∧ o.cols = cols ∧ o.rows = rows ∧
      o.left 0 = Tile.Spec.left c w.tx ∧ o.top 0 = Tile.Spec.top c w.ty ∧
      o.left o.cols = Tile.Spec.left c (w.tx + 1) ∧ o.top o.rows = Tile.Spec.top c (w.ty + 1) ∧
      ∀ i j, ∃ r k, o.left j = d.x p k ∧ o.top i = d.y p r ∧
        ∀ b, (p.has r k → o.value b i j = p.value b r k) ∧ (¬ p.has r k → o.value b i j = p.nodata b) := by
  refine ⟨cut c cols rows d w.tx w.ty p, ?_, ?_, ?_, ?_, ?_, ?_, ?_, ?_⟩
  · rw [prods_of_mem hw, List.getElem?_map, hp]; rfl
  · unfold cut; simp only; rw [hres, dim_self c cols ha.pos]
  · unfold cut; simp only; rw [hres, dim_self c rows ha.pos]
  · unfold cut Chip.left Tile.Spec.left tulx; simp
  · unfold cut Chip.top Tile.Spec.top tuly; simp
  · unfold cut Chip.left Tile.Spec.left tulx; simp only
    rw [hres, dim_self c cols ha.pos, ha.qai, ha.sizeX]; push_cast; ring
  · unfold cut Chip.top Tile.Spec.top tuly; simp only
    rw [hres, dim_self c rows ha.pos, ha.qai, ha.sizeY]; push_cast; ring
  · intro i j
    obtain ⟨kx, hx⟩ := ha.x
    obtain ⟨ky, hy⟩ := ha.y
    have ex : tulx c w.tx - d.ulx = ((w.tx * cols - kx : ℤ) : ℚ) * p.res := by
      unfold tulx; rw [hx, ha.sizeX, hres]; push_cast; ring
    have ey : d.uly - tuly c w.ty = ((w.ty * rows - ky : ℤ) : ℚ) * p.res := by
      unfold tuly; rw [hy, ha.sizeY, hres]; push_cast; ring
    have hpos : 0 < p.res := by rw [hres]; exact ha.pos
    refine ⟨i + (w.ty * rows - ky), j + (w.tx * cols - kx), ?_, ?_, ?_⟩
    · unfold Chip.left Dataset.x cut; simp only
      rw [ha.qai, ← hres]; push_cast at ex ⊢; linear_combination ex
    · unfold Chip.top Dataset.y cut; simp only
      rw [ha.qai, ← hres]; push_cast at ey ⊢; linear_combination -ey
    · intro b
      unfold cut; simp only
      rw [ex, ey, offset_mul _ hpos, offset_mul _ hpos]
      exact chip_eq p _ _ b i j

theorem strip (n : ℤ) (hn : 0 < n) (a : ℤ) : ∃! t : ℤ × ℤ, (0 ≤ t.2 ∧ t.2 < n) ∧ t.1 * n + t.2 = a := by
  refine ⟨(a / n, a % n), ⟨⟨Int.emod_nonneg _ hn.ne', Int.emod_lt_of_pos _ hn⟩, ?_⟩, ?_⟩
  · show a / n * n + a % n = a
    have := Int.emod_add_mul_ediv a n
    linarith
  · rintro ⟨t, j⟩ ⟨⟨h1, h2⟩, h3⟩
    simp only at h1 h2 h3
    have e1 : a / n = t := by
      rw [← h3, Int.add_comm, Int.add_mul_ediv_right _ _ hn.ne', Int.ediv_eq_zero_of_lt h1 h2, zero_add]
    have e2 : a % n = j := by
      rw [← h3, Int.add_comm, Int.add_mul_emod_self_right, Int.emod_eq_of_lt h1 h2]
    simp only [Prod.mk.injEq]
    exact ⟨e1.symm, e2.symm⟩

/-- C103: for datasets on the grid of the datacube, each row and column of the dataset belongs to exactly one tile, row and
column. -/
theorem c103_once (c : Cube) (cols rows : ℤ) (d : Dataset) (ha : Aligned c cols rows d) (r k : ℤ) :
    ∃! t : (ℤ × ℤ) × (ℤ × ℤ), ((0 ≤ t.2.1 ∧ t.2.1 < rows) ∧ 0 ≤ t.2.2 ∧ t.2.2 < cols) ∧
      (Tile.Spec.left c t.1.1 + t.2.2 * c.resolution = d.x d.qai k ∧ Tile.Spec.top c t.1.2 - t.2.1 * c.resolution = d.y d.qai r) := by
  obtain ⟨kx, hx⟩ := ha.x
  obtain ⟨ky, hy⟩ := ha.y
  obtain ⟨⟨tx, j⟩, ⟨hj, hj'⟩, hju⟩ := strip cols ha.colsPos (kx + k)
  obtain ⟨⟨ty, i⟩, ⟨hi, hi'⟩, hiu⟩ := strip rows ha.rowsPos (ky + r)
  have conv : ∀ a b : ℤ, (a : ℚ) * c.resolution = b * c.resolution ↔ a = b := by
    intro a b
    rw [mul_left_inj' ha.pos.ne']; exact Int.cast_inj
  have ex : ∀ tx j : ℤ, (Tile.Spec.left c tx + j * c.resolution = d.x d.qai k ↔ tx * cols + j = kx + k) := by
    intro tx j
    rw [← conv]
    unfold Tile.Spec.left Dataset.x
    rw [hx, ha.sizeX, ha.qai]; push_cast
    constructor <;> intro h <;> linarith
  have ey : ∀ ty i : ℤ, (Tile.Spec.top c ty - i * c.resolution = d.y d.qai r ↔ ty * rows + i = ky + r) := by
    intro ty i
    rw [← conv]
    unfold Tile.Spec.top Dataset.y
    rw [hy, ha.sizeY, ha.qai]; push_cast
    constructor <;> intro h <;> linarith
  refine ⟨((tx, ty), (i, j)), ⟨⟨hi, hj⟩, (ex _ _).2 hj', (ey _ _).2 hi'⟩, ?_⟩
  rintro ⟨⟨tx', ty'⟩, ⟨i', j'⟩⟩ ⟨⟨h1, h2⟩, h3, h4⟩
  have e1 := hju (tx', j') ⟨h2, (ex _ _).1 h3⟩
  have e2 := hiu (ty', i') ⟨h1, (ey _ _).1 h4⟩
  simp only [Prod.mk.injEq] at e1 e2 ⊢
  exact ⟨⟨e1.1, e2.1⟩, e2.2, e1.2⟩

/-- C103, violated: datasets that are not on the grid of the datacube (tiles without reprojection) are shifted: the value at each pixel
is that of a pixel whose left edge is elsewhere, by less than a pixel. -/
theorem c103_shifted_violated (c : Cube) (cols rows : ℤ) (e : Extent) (allow : List (ℤ × ℤ)) (d : Dataset) (maxtc : ℚ)
    (hr : 0 < c.resolution) (hq : d.qai.res = c.resolution) (hc : c.tileSizeX = cols * c.resolution)
    (hx : ¬ ∃ k : ℤ, d.ulx = c.originX + k * c.resolution) (w : Written) (hw : w ∈ tileLevel2 c cols rows e allow d maxtc)
    (i j : ℤ) : ∃ (o : Chip) (r k : ℤ), w.prods[0]? = some o ∧ d.x d.qai k < o.left j ∧ o.left j < d.x d.qai k + c.resolution ∧
      ∀ b, (d.qai.has r k → o.value b i j = d.qai.value b r k) ∧ (¬ d.qai.has r k → o.value b i j = d.qai.nodata b) := by
  set js := offset (tulx c w.tx - d.ulx) d.qai.res with hjs
  refine ⟨cut c cols rows d w.tx w.ty d.qai, i + offset (d.uly - tuly c w.ty) d.qai.res, j + js, ?_, ?_, ?_, ?_⟩
  · rw [prods_of_mem hw]; rfl
  · unfold Chip.left Dataset.x cut
    simp only
    have h1 : (js : ℚ) ≤ (tulx c w.tx - d.ulx) / d.qai.res := Int.floor_le _
    have h2 : (js : ℚ) ≠ (tulx c w.tx - d.ulx) / d.qai.res := by
      intro h
      apply hx
      refine ⟨w.tx * cols - js, ?_⟩
      rw [hq, eq_div_iff hr.ne'] at h
      unfold tulx at h
      rw [hc] at h
      push_cast
      linarith
    have h3 := lt_of_le_of_ne h1 h2
    rw [hq, lt_div_iff₀ hr] at h3
    rw [hq]; push_cast; linarith
  · unfold Chip.left Dataset.x cut
    simp only
    have h1 : (tulx c w.tx - d.ulx) / d.qai.res < (js : ℚ) + 1 := Int.lt_floor_add_one _
    rw [hq, div_lt_iff₀ hr] at h1
    rw [hq]; push_cast; linarith
  · intro b
    exact chip_eq _ _ _ b i j

/-- C103, violated: a product with coarser resolution (the overview) is written with the resolution of the quality product in its
geotransformation: its extent is a fraction of the tile. -/
theorem c103_overview_violated (c : Cube) (cols rows : ℤ) (e : Extent) (allow : List (ℤ × ℤ)) (d : Dataset) (maxtc : ℚ)
    (ha : Aligned c cols rows d) (w : Written) (hw : w ∈ tileLevel2 c cols rows e allow d maxtc)
    (n : Nat) (p : Product) (hp : (d.qai :: d.others)[n]? = some p) (m q : ℤ) (hm : 2 ≤ m) (hres : p.res = m * c.resolution)
    (hc : cols = m * q) :
    ∃ o : Chip, w.prods[n]? = some o ∧ o.cols = q ∧ o.left 0 = Tile.Spec.left c w.tx ∧
      o.left o.cols = Tile.Spec.left c w.tx + c.tileSizeX / m ∧ o.left o.cols < Tile.Spec.left c (w.tx + 1) := by
  have hm0 : (0 : ℚ) < m := by exact_mod_cast (by omega : (0:ℤ) < m)
  have hq : 0 < q := by
    have := ha.colsPos
    rw [hc] at this
    exact pos_of_mul_pos_right this (by omega)
  have hdim : dim c cols p.res = q := by
    unfold dim
    rw [hres, hc]
    have : ((m * q : ℤ) : ℚ) * (c.resolution / (m * c.resolution)) = q := by
      have := ha.pos.ne'
      push_cast
      field_simp
    rw [this]; simp
  have hl : (cut c cols rows d w.tx w.ty p).left (cut c cols rows d w.tx w.ty p).cols =
      Tile.Spec.left c w.tx + c.tileSizeX / m := by
    unfold Chip.left cut Tile.Spec.left tulx
    simp only
    rw [hdim, ha.qai, ha.sizeX, hc]
    push_cast
    field_simp
  refine ⟨cut c cols rows d w.tx w.ty p, ?_, hdim, ?_, hl, ?_⟩
  · rw [prods_of_mem hw, List.getElem?_map, hp]; rfl
  · unfold cut Chip.left Tile.Spec.left tulx; simp
  · rw [hl]
    unfold Tile.Spec.left
    push_cast
    have h1 : 0 < c.tileSizeX := by
      rw [ha.sizeX]
      exact mul_pos (by exact_mod_cast ha.colsPos) ha.pos
    have h2 : c.tileSizeX / m < c.tileSizeX := by
      rw [div_lt_iff₀ hm0]
      have : (2 : ℚ) ≤ m := by exact_mod_cast hm
      nlinarith
    linarith

end Verif.L2tile
