import Verif.L2tile.MultiModel
import Verif.L2tile.Written
import Verif.FloatErr
import Verif.Ml.Prob
import Mathlib.Tactic.NormNum

/-! # Theorems on the grid and on continental datacubes -/

namespace Verif.L2tile

open Verif.Tile (Cube Extent loopRange)
open Verif.Tile.Spec (InExtent Allowed)
open Verif.Float

theorem fmod_pos {a b : ℚ} (ha : 0 ≤ a) (hb : 0 < b) :
    0 ≤ fmod a b ∧ fmod a b < b ∧ a = ⌊a / b⌋ * b + fmod a b := by
  unfold fmod
  rw [Ml.truncQ_nonneg (div_nonneg ha hb.le)]
  have h1 := Int.floor_le (a / b)
  have h2 := Int.lt_floor_add_one (a / b)
  rw [le_div_iff₀ hb] at h1
  rw [div_lt_iff₀ hb] at h2
  refine ⟨by linarith, by linarith, by ring⟩

theorem fmod_int {a b : ℤ} (ha : 0 ≤ a) (hb : 0 < b) : fmod a b = ((a % b : ℤ) : ℚ) := by
  have hq : (0 : ℚ) < b := by exact_mod_cast hb
  unfold fmod
  rw [Ml.truncQ_nonneg (div_nonneg (by exact_mod_cast ha) hq.le)]
  have : ⌊(a : ℚ) / b⌋ = a / b := by
    rw [Int.floor_eq_iff]
    have h := Int.mul_ediv_add_emod a b
    have h1 := Int.emod_nonneg a hb.ne'
    have h2 := Int.emod_lt_of_pos a hb
    rw [le_div_iff₀ hq, div_lt_iff₀ hq]
    constructor
    · have : (a / b) * b ≤ a := by rw [mul_comm]; omega
      exact_mod_cast this
    · have : a < (a / b + 1) * b := by rw [add_mul, mul_comm]; omega
      exact_mod_cast this
  rw [this, Int.emod_def]
  push_cast
  ring

/-- C106, proved part: sizes and resolutions in whole metres (below 2^53): a tile size is accepted if and only if it is a multiple of the
resolution in both directions, and a tile then consists of exactly that many pixels, however the division rounds to nearest. -/
theorem c106_metres_partial (div : ℚ → ℚ → ℚ) (hdiv : ∀ a b, Nearest 53 (a / b) (div a b)) (sx sy res : ℤ) (hres : 0 < res)
    (hx : 0 < sx ∧ sx < 2 ^ 53) (hy : 0 < sy ∧ sy < 2 ^ 53) :
    (∀ n, gridOf div sx sy res = some n → n.1 * res = sx ∧ n.2 * res = sy) ∧
    (∀ cols rows : ℤ, cols * res = sx → rows * res = sy → gridOf div sx sy res = some (cols, rows)) := by
  have key : ∀ s cols : ℤ, 0 < s → s < 2 ^ 53 → cols * res = s → ⌊div s res⌋ = cols := by
    intro s cols h0 h1 h
    have hq : (res : ℚ) ≠ 0 := by exact_mod_cast hres.ne'
    have e : (s : ℚ) / res = (cols : ℤ) := by
      rw [← h]; push_cast; field_simp
    have hc : 0 < cols := by
      by_contra hn
      have : cols * res ≤ 0 := mul_nonpos_of_nonpos_of_nonneg (by omega) hres.le
      omega
    have hb : cols ≤ s := by nlinarith
    have := hdiv s res
    rw [e] at this
    rw [eq_of_nearest_rep (rep_int (by rw [abs_of_pos hc]; omega)) this]
    simp
  have acc : ∀ s : ℤ, 0 < s → (¬ fmod (s : ℚ) res > 5 / 1000 ↔ s % res = 0) := by
    intro s hs
    rw [fmod_int hs.le hres]
    have h1 := Int.emod_nonneg s hres.ne'
    constructor
    · intro h
      by_contra hn
      have : (1 : ℤ) ≤ s % res := by omega
      have : (1 : ℚ) ≤ ((s % res : ℤ) : ℚ) := by exact_mod_cast this
      apply h
      linarith
    · intro h
      rw [h]; norm_num
  have ex : ∀ s : ℤ, s % res = 0 → ∃ c, c * res = s := by
    intro s h
    refine ⟨s / res, ?_⟩
    have := Int.mul_ediv_add_emod s res
    rw [mul_comm]; omega
  constructor
  · intro n h
    unfold gridOf at h
    split at h
    · simp at h
    · rename_i hn
      rw [not_or, acc _ hx.1, acc _ hy.1] at hn
      simp only [Option.some.injEq] at h
      obtain ⟨c, hc⟩ := ex _ hn.1
      obtain ⟨r, hr⟩ := ex _ hn.2
      rw [key _ _ hx.1 hx.2 hc, key _ _ hy.1 hy.2 hr] at h
      subst h
      exact ⟨hc, hr⟩
  · intro c r hc hr
    unfold gridOf
    rw [if_neg, key _ _ hx.1 hx.2 hc, key _ _ hy.1 hy.2 hr]
    rw [not_or, acc _ hx.1, acc _ hy.1]
    exact ⟨by rw [← hc]; exact Int.mul_emod_left .., by rw [← hr]; exact Int.mul_emod_left ..⟩

/-- C106, violated: with resolutions up to 0.005 (all geographic datacubes with pixels below 500 m), every tile size is accepted; and a
tile that is no multiple of the resolution has a strip, narrower than a pixel, that belongs to none of its pixels. -/
theorem c106_degrees_violated (sx sy res : ℚ) (hres : 0 < res) (h : res ≤ 5 / 1000) (hx : 0 < sx) (hy : 0 < sy)
    (hno : ¬ ∃ k : ℤ, sx = k * res) :
    ∃ cols rows, gridOf (· / ·) sx sy res = some (cols, rows) ∧ cols * res < sx ∧
      ∀ x, cols * res < x → x < sx → ¬ ∃ j : ℤ, j < cols ∧ j * res ≤ x ∧ x ≤ (j + 1) * res := by
  obtain ⟨a1, a2, a3⟩ := fmod_pos hx.le hres
  obtain ⟨b1, b2, b3⟩ := fmod_pos hy.le hres
  refine ⟨⌊sx / res⌋, ⌊sy / res⌋, ?_, ?_, ?_⟩
  · unfold gridOf
    rw [if_neg]
    rw [not_or]
    exact ⟨by linarith, by linarith⟩
  · rcases a1.lt_or_eq with h' | h'
    · linarith
    · exact absurd ⟨⌊sx / res⌋, by linarith⟩ hno
  · rintro x h1 h2 ⟨j, h3, h4, h5⟩
    have : (j : ℚ) + 1 ≤ ⌊sx / res⌋ := by exact_mod_cast h3
    have := mul_le_mul_of_nonneg_right this hres.le
    linarith

/-- C106, violated: rounding makes tiles of 0.3 degrees with pixels of 0.0001 degrees one pixel too small: 2999 instead of 3000
columns, without a message. -/
theorem c106_gap_violated (div : ℚ → ℚ → ℚ) (hdiv : ∀ a b, Nearest 53 (a / b) (div a b)) (size res : ℚ)
    (hs : Nearest 53 (3 / 10) size) (hr : Nearest 53 (1 / 10000) res) : gridOf div size size res = some (2999, 2999) := by
  have e1 := nearest_unique_of_ge (by norm_num) hs 5404319552844595 (-54) (by norm_num) (by norm_num) (by norm_num [abs_lt, zpow_neg])
  have e2 := nearest_unique_of_ge (by norm_num) hr 7378697629483821 (-66) (by norm_num) (by norm_num) (by norm_num [abs_lt, zpow_neg])
  have h := hdiv size res
  rw [e1, e2] at h
  have e3 := nearest_unique_of_ge (by norm_num) h 6597069766655999 (-41) (by norm_num) (by norm_num) (by norm_num [abs_lt, zpow_neg])
  have p1 : 0 ≤ size := by rw [e1]; norm_num
  have p2 : 0 < res := by rw [e2]; norm_num
  have p3 : res ≤ 5 / 1000 := by rw [e2]; norm_num
  obtain ⟨a1, a2, -⟩ := fmod_pos p1 p2
  unfold gridOf
  rw [if_neg (by rw [or_self]; linarith), e1, e2, e3]
  have : ⌊((6597069766655999 : ℤ) : ℚ) * 2 ^ (-41 : ℤ)⌋ = 2999 := by
    rw [Int.floor_eq_iff]; norm_num
  rw [this]

/-- C106, violated: rounding also makes the program refuse multiples: tiles of 1 degree with pixels of 0.01 degrees. -/
theorem c106_refused_violated (div : ℚ → ℚ → ℚ) (res : ℚ) (hr : Nearest 53 (1 / 100) res) : gridOf div 1 1 res = none := by
  have e2 := nearest_unique_of_ge (by norm_num) hr 5764607523034235 (-59) (by norm_num) (by norm_num) (by norm_num [abs_lt, zpow_neg])
  unfold gridOf
  rw [if_pos]
  left
  have p2 : 0 < res := by rw [e2]; norm_num
  have hf : ⌊1 / res⌋ = 99 := by
    rw [Int.floor_eq_iff, e2]; norm_num
  obtain ⟨-, -, a3⟩ := fmod_pos zero_le_one p2
  rw [hf] at a3
  have : fmod 1 res = 1 - 99 * res := by push_cast at a3; linarith
  rw [this, e2]
  norm_num

/-- C106: chunks: sizes in whole metres: the chunks are accepted if and only if a whole number of them fits in a tile; otherwise
the program stops. -/
theorem c106_chunks (sx sy cx cy : ℤ) (hx : 0 < sx) (hy : 0 < sy) (hcx : 0 < cx) (hcy : 0 < cy) :
    (∀ n, chunkLayout sx sy cx cy = some n → n.1 * cx = sx ∧ n.2 * cy = sy) ∧
    (∀ cols rows : ℤ, cols * cx = sx → rows * cy = sy → chunkLayout sx sy cx cy = some (cols, rows)) := by
  have fl : ∀ s c : ℤ, 0 < s → 0 < c → Index.truncQ ((s : ℚ) / c) = s / c := by
    intro s c hs hc
    have hq : (0 : ℚ) < c := by exact_mod_cast hc
    rw [Ml.truncQ_nonneg (div_nonneg (by exact_mod_cast hs.le) hq.le), Int.floor_eq_iff]
    have h := Int.mul_ediv_add_emod s c
    have h1 := Int.emod_nonneg s hc.ne'
    have h2 := Int.emod_lt_of_pos s hc
    rw [le_div_iff₀ hq, div_lt_iff₀ hq]
    constructor
    · have : (s / c) * c ≤ s := by rw [mul_comm]; omega
      exact_mod_cast this
    · have : s < (s / c + 1) * c := by rw [add_mul, mul_comm]; omega
      exact_mod_cast this
  have acc : ∀ s c : ℤ, 0 < s → 0 < c → (fmod (s : ℚ) c > 5 / 1000 ↔ s % c ≠ 0) := by
    intro s c hs hc
    rw [fmod_int hs.le hc]
    have h1 := Int.emod_nonneg s hc.ne'
    constructor
    · intro h h'
      rw [h'] at h
      norm_num at h
    · intro h
      have : (1 : ℤ) ≤ s % c := by omega
      have : (1 : ℚ) ≤ ((s % c : ℤ) : ℚ) := by exact_mod_cast this
      linarith
  constructor
  · intro n h
    unfold chunkLayout at h
    rw [fl _ _ hx hcx, fl _ _ hy hcy] at h
    split_ifs at h with h1 h2 h3 h4
    rw [acc _ _ hx hcx, not_not] at h3
    rw [acc _ _ hy hcy, not_not] at h4
    simp only [Option.some.injEq] at h
    subst h
    have e1 := Int.mul_ediv_add_emod sx cx
    have e2 := Int.mul_ediv_add_emod sy cy
    constructor
    · show sx / cx * cx = sx
      rw [mul_comm]; omega
    · show sy / cy * cy = sy
      rw [mul_comm]; omega
  · intro c r hc hr
    have pc : 1 ≤ c := by
      by_contra hn
      have : c * cx ≤ 0 := mul_nonpos_of_nonpos_of_nonneg (by omega) hcx.le
      omega
    have pr : 1 ≤ r := by
      by_contra hn
      have : r * cy ≤ 0 := mul_nonpos_of_nonpos_of_nonneg (by omega) hcy.le
      omega
    have e1 : sx / cx = c := by rw [← hc]; exact Int.mul_ediv_cancel _ hcx.ne'
    have e2 : sy / cy = r := by rw [← hr]; exact Int.mul_ediv_cancel _ hcy.ne'
    unfold chunkLayout
    rw [fl _ _ hx hcx, fl _ _ hy hcy, e1, e2, if_neg (by omega), if_neg (by omega), if_neg, if_neg]
    · rw [acc _ _ hy hcy, not_not, ← hr]; exact Int.mul_emod_left ..
    · rw [acc _ _ hx hcx, not_not, ← hc]; exact Int.mul_emod_left ..

theorem cover_iff (tiles : List (ℤ × ℤ)) (e : Extent) : cover tiles e = true ↔ ∃ t ∈ tiles, InExtent e t.1 t.2 := by
  unfold cover InExtent
  simp only [List.any_eq_true, mem_loopRange, Bool.and_eq_true, decide_eq_true_eq]
  constructor
  · rintro ⟨t, ht, x, hx, y, hy, rfl, rfl⟩
    exact ⟨t, ht, hx, hy⟩
  · rintro ⟨t, ht, hx, hy⟩
    exact ⟨t, ht, t.1, hx, t.2, hy, rfl, rfl⟩

/-- C107, proved part: data are written for exactly the continents that are asked for and have a tile in the extent of the image, once
each and in the order of the continents. -/
theorem c107_continents_partial (all proj : String) (allow : List (ℤ × ℤ)) (maxtc : ℚ) (ks : List Continent) :
    (∀ k : Continent, used all proj true k = true ↔ (proj = all ∨ proj = k.name) ∧ ∃ t ∈ k.tiles, InExtent k.extent t.1 t.2) ∧
    (∀ k ∈ ks, ((proj = all ∨ proj = k.name) ∧ ∃ t ∈ k.tiles, InExtent k.extent t.1 t.2) →
      (k.name, tileLevel2 k.cube k.cols k.rows k.extent allow k.data maxtc) ∈ multi all proj allow maxtc ks) ∧
    ((multi all proj allow maxtc ks).map (·.1)).Sublist (ks.map (·.name)) := by
  have key : ∀ k : Continent, used all proj true k = true ↔ (proj = all ∨ proj = k.name) ∧ ∃ t ∈ k.tiles, InExtent k.extent t.1 t.2 := by
    intro k
    unfold used
    split
    · rename_i h
      simp only [Bool.false_eq_true, false_iff]
      rintro ⟨h' | h', -⟩
      · exact h.1 h'
      · exact h.2 h'
    · rename_i h
      rw [if_pos rfl, cover_iff]
      have : proj = all ∨ proj = k.name := by tauto
      tauto
  refine ⟨key, ?_, ?_⟩
  · intro k hk h
    unfold multi
    rw [List.mem_map]
    exact ⟨k, List.mem_filter.2 ⟨hk, (key k).2 h⟩, rfl⟩
  · unfold multi
    rw [List.map_map]
    exact (List.filter_sublist).map _

/-- C107: nothing is written for the other continents. -/
theorem c107_nothing_else (all proj : String) (allow : List (ℤ × ℤ)) (maxtc : ℚ) (ks : List Continent) (n : String) (ws : List Written)
    (h : (n, ws) ∈ multi all proj allow maxtc ks) :
    ∃ k ∈ ks, k.name = n ∧ (proj = all ∨ proj = n) ∧ ∃ t ∈ k.tiles, InExtent k.extent t.1 t.2 := by
  unfold multi at h
  rw [List.mem_map] at h
  obtain ⟨k, hk, e⟩ := h
  rw [List.mem_filter] at hk
  have := ((c107_continents_partial all proj allow maxtc ks).1 k).1 hk.2
  simp only [Prod.mk.injEq] at e
  refine ⟨k, hk.1, e.1, ?_, this.2⟩
  rw [← e.1]
  exact this.1

/-- C107, violated: once a continent is covered, its list of tiles is not consulted again: every tile of the extent with enough clear
data is written, also those that belong to another continent. -/
theorem c107_foreign_violated (all proj : String) (maxtc : ℚ) (ks : List Continent) (k : Continent) (hk : k ∈ ks)
    (hp : proj = all ∨ proj = k.name) (hc : ∃ t ∈ k.tiles, InExtent k.extent t.1 t.2) (ha : Aligned k.cube k.cols k.rows k.data)
    (tx ty : ℤ) (hf : (tx, ty) ∉ k.tiles) (hin : InExtent k.extent tx ty) (hv : (Valid k.cube k.data tx ty).ncard ≠ 0)
    (hm : 100 * ((Cloudy k.cube k.data tx ty).ncard : ℚ) ≤ maxtc * (Valid k.cube k.data tx ty).ncard) :
    ∃ ws, (k.name, ws) ∈ multi all proj [] maxtc ks ∧ ∃ w ∈ ws, (w.tx, w.ty) ∉ k.tiles := by
  refine ⟨_, (c107_continents_partial all proj [] maxtc ks).2.1 k hk ⟨hp, hc⟩, ?_⟩
  obtain ⟨w, hw, h1, h2⟩ := (c104_written k.cube k.cols k.rows k.extent [] k.data maxtc ha tx ty).2 ⟨hin, .inl rfl, hv, hm⟩
  exact ⟨w, hw, by rw [h1, h2]; exact hf⟩

end Verif.L2tile
