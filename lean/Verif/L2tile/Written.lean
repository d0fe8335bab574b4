import Verif.L2tile.Cut
import Mathlib.Data.Finset.Card
import Mathlib.Data.List.Nodup
import Mathlib.Data.List.Flatten

/-! # Theorems on which tiles are written -/

namespace Verif.L2tile

open Verif.Tile (Cube Extent loopRange tileAllowlisted)
open Verif.Tile.Spec (InExtent Allowed)

/-- Whether a tile pixel has data. -/
def good (p : Product) (is js : ℤ) (q : ℤ × ℤ) : Bool :=
  decide (0 ≤ q.1 + is ∧ q.1 + is < p.ny ∧ 0 ≤ q.2 + js ∧ q.2 + js < p.nx) &&
    decide (Qai.get .off (flags (p.value 0 (q.1 + is) (q.2 + js))) = 0)

def cloudy (p : Product) (is js : ℤ) (q : ℤ × ℤ) : Bool :=
  decide (Qai.get .cld (flags (p.value 0 (q.1 + is) (q.2 + js))) ≠ 0 ∨ Qai.get .shd (flags (p.value 0 (q.1 + is) (q.2 + js))) ≠ 0)

theorem countPixel_eq (p : Product) (is js : ℤ) (n : Count) (q : ℤ × ℤ) :
    countPixel p is js n q = { ncld := n.ncld + if good p is js q && cloudy p is js q then 1 else 0
                               ndata := n.ndata + if good p is js q then 1 else 0 } := by
  unfold countPixel chip good cloudy
  by_cases h1 : q.1 + is < 0 ∨ q.1 + is ≥ p.ny ∨ q.2 + js < 0 ∨ q.2 + js ≥ p.nx
  · rw [if_pos h1, decide_eq_false (by omega)]; simp
  · rw [if_neg h1, if_neg h1, decide_eq_true (show 0 ≤ q.1 + is ∧ q.1 + is < p.ny ∧ 0 ≤ q.2 + js ∧ q.2 + js < p.nx by omega)]
    simp only
    by_cases h2 : Qai.get .off (flags (p.value 0 (q.1 + is) (q.2 + js))) = 0
    · rw [if_neg (by simpa using h2), decide_eq_true h2]
      simp only [Bool.and_self, Bool.true_and]
      by_cases h3 : Qai.get .cld (flags (p.value 0 (q.1 + is) (q.2 + js))) ≠ 0 ∨ Qai.get .shd (flags (p.value 0 (q.1 + is) (q.2 + js))) ≠ 0
      · rw [if_pos (by omega), if_pos (by rw [decide_eq_true h3])]; simp
      · rw [if_neg (by omega), decide_eq_false h3]; simp
    · rw [if_pos h2, decide_eq_false h2]; simp

theorem foldl_count (p : Product) (is js : ℤ) (l : List (ℤ × ℤ)) (n : Count) :
    l.foldl (countPixel p is js) n = { ncld := n.ncld + (l.filter fun q => good p is js q && cloudy p is js q).length
                                       ndata := n.ndata + (l.filter (good p is js)).length } := by
  induction l generalizing n with
  | nil => simp
  | cons q l ih =>
    rw [List.foldl_cons, ih, countPixel_eq, List.filter_cons, List.filter_cons]
    congr 1
    · by_cases h : (good p is js q && cloudy p is js q) = true
      · rw [if_pos h, if_pos h, List.length_cons]; simp only; omega
      · rw [if_neg h, if_neg h]; simp only; omega
    · by_cases h : good p is js q = true
      · rw [if_pos h, if_pos h, List.length_cons]; simp only; omega
      · rw [if_neg h, if_neg h]; simp only; omega

theorem nodup_loopRange (lo hi : ℤ) : (loopRange lo hi).Nodup := by
  unfold loopRange
  refine List.Nodup.map ?_ List.nodup_range
  intro a b h
  simp only at h
  omega

theorem mem_pixels {rows cols : ℤ} {q : ℤ × ℤ} :
    q ∈ pixels rows cols ↔ (0 ≤ q.1 ∧ q.1 < rows) ∧ 0 ≤ q.2 ∧ q.2 < cols := by
  unfold pixels
  simp only [List.mem_flatMap, List.mem_map, mem_loopRange]
  constructor
  · rintro ⟨i, h1, j, h2, rfl⟩
    simp only; omega
  · rintro ⟨h1, h2⟩
    exact ⟨q.1, by omega, q.2, by omega, rfl⟩

theorem nodup_pixels (rows cols : ℤ) : (pixels rows cols).Nodup := by
  unfold pixels
  rw [List.nodup_flatMap]
  refine ⟨fun i _ => List.Nodup.map (fun a b h => by simpa using h) (nodup_loopRange _ _), ?_⟩
  refine List.Pairwise.imp ?_ (nodup_loopRange 0 (rows - 1))
  intro a b hab
  simp only [Function.onFun, List.disjoint_left, List.mem_map]
  rintro q ⟨j, _, rfl⟩ ⟨k, _, h⟩
  simp only [Prod.mk.injEq] at h
  exact hab h.1.symm

/-- The number of list elements with a property is the size of the shifted set. -/
theorem length_filter_shift (rows cols is js : ℤ) (f : ℤ × ℤ → Bool) (s : Set (ℤ × ℤ))
    (h : ∀ i j, (i + is, j + js) ∈ s ↔ ((0 ≤ i ∧ i < rows) ∧ 0 ≤ j ∧ j < cols) ∧ f (i, j) = true) :
    ((pixels rows cols).filter f).length = s.ncard := by
  have inj : Function.Injective fun q : ℤ × ℤ => (q.1 + is, q.2 + js) := by
    rintro ⟨a, b⟩ ⟨a', b'⟩ hab
    simp only [Prod.mk.injEq] at hab ⊢
    omega
  have hn : (((pixels rows cols).filter f).map fun q => (q.1 + is, q.2 + js)).Nodup :=
    List.Nodup.map inj ((nodup_pixels rows cols).filter _)
  have hs : s = ↑(((pixels rows cols).filter f).map fun q : ℤ × ℤ => (q.1 + is, q.2 + js)).toFinset := by
    ext ⟨r, k⟩
    simp only [List.coe_toFinset, List.mem_map, List.mem_filter, mem_pixels, Set.mem_setOf_eq]
    constructor
    · intro hrk
      have := (h (r - is) (k - js)).1 (by simpa using hrk)
      exact ⟨(r - is, k - js), this, by simp⟩
    · rintro ⟨⟨i, j⟩, hq, he⟩
      simp only [Prod.mk.injEq] at he
      rw [← he.1, ← he.2]
      exact (h i j).2 hq
  rw [hs, Set.ncard_coe_finset, List.toFinset_card_of_nodup hn, List.length_map]

theorem valid_iff (c : Cube) (cols rows : ℤ) (d : Dataset) (ha : Aligned c cols rows d) (tx ty i j : ℤ) :
    (i + offset (d.uly - tuly c ty) d.qai.res, j + offset (tulx c tx - d.ulx) d.qai.res) ∈ Valid c d tx ty ↔
      ((0 ≤ i ∧ i < rows) ∧ 0 ≤ j ∧ j < cols) ∧
        good d.qai (offset (d.uly - tuly c ty) d.qai.res) (offset (tulx c tx - d.ulx) d.qai.res) (i, j) = true := by
  obtain ⟨kx, hx⟩ := ha.x
  obtain ⟨ky, hy⟩ := ha.y
  have hpos : 0 < d.qai.res := by rw [ha.qai]; exact ha.pos
  have ex : tulx c tx - d.ulx = ((tx * cols - kx : ℤ) : ℚ) * d.qai.res := by
    unfold tulx; rw [hx, ha.sizeX, ha.qai]; push_cast; ring
  have ey : d.uly - tuly c ty = ((ty * rows - ky : ℤ) : ℚ) * d.qai.res := by
    unfold tuly; rw [hy, ha.sizeY, ha.qai]; push_cast; ring
  rw [ex, ey, offset_mul _ hpos, offset_mul _ hpos]
  have le : ∀ a b : ℤ, (a : ℚ) * c.resolution ≤ b * c.resolution ↔ a ≤ b := fun a b => by
    rw [mul_le_mul_iff_left₀ ha.pos]; exact Int.cast_le
  have lt : ∀ a b : ℤ, (a : ℚ) * c.resolution < b * c.resolution ↔ a < b := fun a b => by
    rw [mul_lt_mul_iff_left₀ ha.pos]; exact Int.cast_lt
  have h1 : Tile.Spec.left c tx ≤ d.x d.qai (j + (tx * cols - kx)) ↔ 0 ≤ j := by
    rw [← le]; unfold Tile.Spec.left Dataset.x
    rw [hx, ha.sizeX, ha.qai]; push_cast
    constructor <;> intro h <;> linarith
  have h2 : d.x d.qai (j + (tx * cols - kx)) < Tile.Spec.left c (tx + 1) ↔ j < cols := by
    rw [← lt]; unfold Tile.Spec.left Dataset.x
    rw [hx, ha.sizeX, ha.qai]; push_cast
    constructor <;> intro h <;> linarith
  have h3 : Tile.Spec.top c (ty + 1) < d.y d.qai (i + (ty * rows - ky)) ↔ i < rows := by
    rw [← lt]; unfold Tile.Spec.top Dataset.y
    rw [hy, ha.sizeY, ha.qai]; push_cast
    constructor <;> intro h <;> linarith
  have h4 : d.y d.qai (i + (ty * rows - ky)) ≤ Tile.Spec.top c ty ↔ 0 ≤ i := by
    rw [← le]; unfold Tile.Spec.top Dataset.y
    rw [hy, ha.sizeY, ha.qai]; push_cast
    constructor <;> intro h <;> linarith
  unfold Valid good Product.has
  simp only [Set.mem_setOf_eq, h1, h2, h3, h4, Bool.and_eq_true, decide_eq_true_iff]
  tauto

theorem cloudy_iff (c : Cube) (cols rows : ℤ) (d : Dataset) (ha : Aligned c cols rows d) (tx ty i j : ℤ) :
    (i + offset (d.uly - tuly c ty) d.qai.res, j + offset (tulx c tx - d.ulx) d.qai.res) ∈ Cloudy c d tx ty ↔
      ((0 ≤ i ∧ i < rows) ∧ 0 ≤ j ∧ j < cols) ∧
        (good d.qai (offset (d.uly - tuly c ty) d.qai.res) (offset (tulx c tx - d.ulx) d.qai.res) (i, j) &&
         cloudy d.qai (offset (d.uly - tuly c ty) d.qai.res) (offset (tulx c tx - d.ulx) d.qai.res) (i, j)) = true := by
  show _ ∈ Valid c d tx ty ∧ _ ↔ _
  rw [valid_iff c cols rows d ha, Bool.and_eq_true, and_assoc]
  unfold cloudy
  rw [decide_eq_true_iff]

theorem count_eq (c : Cube) (cols rows : ℤ) (d : Dataset) (ha : Aligned c cols rows d) (tx ty : ℤ) :
    count d.qai (dim c rows d.qai.res) (dim c cols d.qai.res) (offset (d.uly - tuly c ty) d.qai.res)
      (offset (tulx c tx - d.ulx) d.qai.res) = ⟨(Cloudy c d tx ty).ncard, (Valid c d tx ty).ncard⟩ := by
  unfold count
  rw [foldl_count]
  have hr : dim c rows d.qai.res = rows := by rw [ha.qai, dim_self c rows ha.pos]
  have hc : dim c cols d.qai.res = cols := by rw [ha.qai, dim_self c cols ha.pos]
  rw [hr, hc]
  congr 1
  · rw [length_filter_shift rows cols _ _ _ (Cloudy c d tx ty) (cloudy_iff c cols rows d ha tx ty)]; simp
  · rw [length_filter_shift rows cols _ _ _ (Valid c d tx ty) (valid_iff c cols rows d ha tx ty)]; simp

/-- C104: a tile is written if and only if it is in the extent, is allowed, has data, and the share of cloud and cloud shadow in these
data, in percent, does not exceed the limit. -/
theorem c104_written (c : Cube) (cols rows : ℤ) (e : Extent) (allow : List (ℤ × ℤ)) (d : Dataset) (maxtc : ℚ)
    (ha : Aligned c cols rows d) (tx ty : ℤ) :
    (∃ w ∈ tileLevel2 c cols rows e allow d maxtc, w.tx = tx ∧ w.ty = ty) ↔
      InExtent e tx ty ∧ Allowed allow tx ty ∧ (Valid c d tx ty).ncard ≠ 0 ∧
        100 * ((Cloudy c d tx ty).ncard : ℚ) ≤ maxtc * (Valid c d tx ty).ncard := by
  have key : (∃ w, tileOne c cols rows allow d maxtc tx ty = some w) ↔ Allowed allow tx ty ∧ (Valid c d tx ty).ncard ≠ 0 ∧
        100 * ((Cloudy c d tx ty).ncard : ℚ) ≤ maxtc * (Valid c d tx ty).ncard := by
    unfold tileOne
    rw [count_eq c cols rows d ha]
    simp only
    rw [← allowlisted_iff]
    cases h1 : tileAllowlisted allow tx ty
    · simp
    · rw [if_neg (by simp)]
      by_cases h2 : (Valid c d tx ty).ncard = 0
      · rw [if_pos h2]; simp [h2]
      · rw [if_neg h2]
        have hpos : (0 : ℚ) < (Valid c d tx ty).ncard := by exact_mod_cast Nat.pos_of_ne_zero h2
        have e1 : ((Cloudy c d tx ty).ncard : ℚ) / (Valid c d tx ty).ncard * 100 > maxtc ↔
            ¬ 100 * ((Cloudy c d tx ty).ncard : ℚ) ≤ maxtc * (Valid c d tx ty).ncard := by
          rw [not_le, div_mul_eq_mul_div, gt_iff_lt, lt_div_iff₀ hpos, mul_comm (100 : ℚ)]
        by_cases h3 : 100 * ((Cloudy c d tx ty).ncard : ℚ) ≤ maxtc * (Valid c d tx ty).ncard
        · rw [if_neg (by rw [e1]; exact not_not.2 h3)]
          exact ⟨fun _ => ⟨rfl, h2, h3⟩, fun _ => ⟨_, rfl⟩⟩
        · rw [if_pos (e1.2 h3)]
          simp [h3]
  constructor
  · rintro ⟨w, hw, rfl, rfl⟩
    obtain ⟨h1, h2⟩ := (mem_tileLevel2 ..).1 hw
    exact ⟨h1, key.1 ⟨w, h2⟩⟩
  · rintro ⟨h1, h2⟩
    obtain ⟨w, hw⟩ := key.2 h2
    have hk : w.tx = tx ∧ w.ty = ty := by
      unfold tileOne at hw
      split at hw
      · simp at hw
      · simp only at hw
        split at hw
        · simp at hw
        · split at hw
          · simp at hw
          · simp only [Option.some.injEq] at hw
            subst hw; exact ⟨rfl, rfl⟩
    refine ⟨w, (mem_tileLevel2 ..).2 ⟨?_, ?_⟩, hk⟩
    · rw [hk.1, hk.2]; exact h1
    · rw [hk.1, hk.2]; exact hw

/-- C104: no tile is written twice, and every written tile has all products. -/
theorem c104_complete (c : Cube) (cols rows : ℤ) (e : Extent) (allow : List (ℤ × ℤ)) (d : Dataset) (maxtc : ℚ) :
    ((tileLevel2 c cols rows e allow d maxtc).map fun w => (w.tx, w.ty)).Nodup ∧
      ∀ w ∈ tileLevel2 c cols rows e allow d maxtc, w.prods.length = d.others.length + 1 := by
  constructor
  · have tag : ∀ tx ty w, tileOne c cols rows allow d maxtc tx ty = some w → (w.tx, w.ty) = (tx, ty) := by
      intro tx ty w h
      unfold tileOne at h
      split at h
      · simp at h
      · simp only at h
        split at h
        · simp at h
        · split at h
          · simp at h
          · simp only [Option.some.injEq] at h
            subst h; rfl
    unfold tileLevel2
    rw [List.map_flatMap, List.nodup_flatMap]
    have row : ∀ ty, ∀ q ∈ ((loopRange e.minX e.maxX).filterMap fun tx => tileOne c cols rows allow d maxtc tx ty).map
        fun w => (w.tx, w.ty), q.2 = ty := by
      intro ty q hq
      simp only [List.mem_map, List.mem_filterMap] at hq
      obtain ⟨w, ⟨tx, _, h⟩, rfl⟩ := hq
      rw [tag _ _ _ h]
    constructor
    · intro ty _
      rw [List.map_filterMap]
      refine List.Nodup.filterMap ?_ (nodup_loopRange _ _)
      intro a a' b hb hb'
      simp only [Option.mem_def, Option.map_eq_some_iff] at hb hb'
      obtain ⟨w, h, rfl⟩ := hb
      obtain ⟨w', h', hww⟩ := hb'
      rw [tag _ _ _ h, tag _ _ _ h'] at hww
      simp only [Prod.mk.injEq] at hww
      exact hww.1.symm
    · refine List.Pairwise.imp ?_ (nodup_loopRange e.minY e.maxY)
      intro a b hab
      simp only [Function.onFun, List.disjoint_left]
      intro q h1 h2
      exact hab ((row a q h1).symm.trans (row b q h2))
  · intro w hw
    rw [prods_of_mem hw]
    simp

end Verif.L2tile
