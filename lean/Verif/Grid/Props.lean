import Verif.Grid.Model
import Verif.Brick.Props
import Verif.Watch.Units
import Verif.FloatErr

/-! Property C314. -/

namespace Verif.Grid

open Verif.Str (Out)
open Verif.Float Verif.Brick

theorem ceil_exact {rd : ℚ → ℚ} (hrd : ∀ x, Nearest 53 x (rd x)) (m : ℤ) (h0 : 0 ≤ m) (h1 : m < 2 ^ 53) :
    ⌈rd ((m : ℚ) / 5000)⌉ = ⌈(m : ℚ) / 5000⌉ := by
  set k := ⌈(m : ℚ) / 5000⌉ with hk
  have a := Int.le_ceil ((m : ℚ) / 5000)
  have b := Int.ceil_lt_add_one ((m : ℚ) / 5000)
  rw [← hk] at a b
  have hm0 : (0 : ℚ) ≤ m := by exact_mod_cast h0
  have hm1 : (m : ℚ) < 2 ^ 53 := by exact_mod_cast h1
  have k0 : (0 : ℤ) ≤ k := by
    rw [hk]; exact Int.ceil_nonneg (by positivity)
  have k1 : k ≤ 2 ^ 53 := by
    have : (k : ℚ) < 2 ^ 53 / 5000 + 1 := by linarith
    have : (k : ℚ) ≤ 2 ^ 53 := by linarith
    exact_mod_cast this
  rw [Int.ceil_eq_iff]
  constructor
  · have hlt : ((k : ℚ) - 1) * 5000 < m := by
      have : (k : ℚ) - 1 < m / 5000 := by linarith
      rw [lt_div_iff₀ (by norm_num)] at this; exact this
    have hi : (k - 1) * 5000 + 1 ≤ m := by
      have : (k - 1) * 5000 < m := by exact_mod_cast hlt
      omega
    have hq : ((k : ℚ) - 1) * 5000 + 1 ≤ m := by exact_mod_cast hi
    have he := nearest_err (p := 53) (by norm_num) (hrd ((m : ℚ) / 5000))
    rw [abs_of_nonneg (by positivity : (0 : ℚ) ≤ (m : ℚ) / 5000)] at he
    have he2 := (abs_le.1 he).2
    have : (m : ℚ) / 5000 / 2 ^ 53 < 1 / 5000 := by
      rw [div_div, div_lt_div_iff₀ (by positivity) (by norm_num)]; linarith
    have : (k : ℚ) - 1 + 1 / 5000 ≤ m / 5000 := by
      rw [le_div_iff₀ (by norm_num)]; linarith
    linarith
  · have := Verif.Watch.round_mono hrd a
    rw [eq_of_nearest_rep (rep_int (by rw [abs_of_nonneg k0]; exact k1)) (hrd k)] at this
    exact this

theorem cells_eq {rd : ℚ → ℚ} (hrd : ∀ x, Nearest 53 x (rd x)) (n a : ℤ) (h0 : 0 ≤ n * a) (h1 : n * a < 2 ^ 53) :
    cells rd n a = ⌈((n * a : ℤ) : ℚ) / 5000⌉ := by
  unfold cells
  have e : rd ((n : ℚ) * a) = ((n * a : ℤ) : ℚ) := by
    have := eq_of_nearest_rep (rep_int (p := 53) (k := n * a) (by rw [abs_of_nonneg h0]; omega)) (hrd ((n * a : ℤ) : ℚ))
    push_cast at this ⊢; exact this
  rw [e, ceil_exact hrd _ h0 h1]

theorem cells_spec {rd : ℚ → ℚ} (hrd : ∀ x, Nearest 53 x (rd x)) (n a : ℤ) (h0 : 0 ≤ n * a) (h1 : n * a < 2 ^ 53) :
    5000 * (cells rd n a - 1) < n * a ∧ n * a ≤ 5000 * cells rd n a := by
  rw [cells_eq hrd n a h0 h1]
  have a1 := Int.le_ceil (((n * a : ℤ) : ℚ) / 5000)
  have b1 := Int.ceil_lt_add_one (((n * a : ℤ) : ℚ) / 5000)
  rw [div_le_iff₀ (by norm_num)] at a1
  have b2 : ((⌈((n * a : ℤ) : ℚ) / 5000⌉ : ℤ) : ℚ) - 1 < ((n * a : ℤ) : ℚ) / 5000 := by linarith
  rw [lt_div_iff₀ (by norm_num)] at b2
  constructor
  · have : (⌈((n * a : ℤ) : ℚ) / 5000⌉ - 1) * 5000 < n * a := by exact_mod_cast b2
    omega
  · have : n * a ≤ ⌈((n * a : ℤ) : ℚ) / 5000⌉ * 5000 := by exact_mod_cast a1
    omega

/-- C314: for a resolution of whole metres, in double precision, the grid has the smallest number of cells of 5 km that cover the
image in each direction, and it is made if and only if there are at most 65535 cells; if not, the program ends. The bound on the
extent is that up to which the number of cells cannot overflow, 231700 km. -/
theorem c314_grid (rd : ℚ → ℚ) (hrd : ∀ x, Nearest 53 x (rd x)) (nx ny a : ℤ) (hx : 0 < nx) (hy : 0 < ny) (ha : 0 < a)
    (bx : nx * a ≤ 231700000) (hby : ny * a ≤ 231700000) :
    ∃ gx gy : ℤ, 5000 * (gx - 1) < nx * a ∧ nx * a ≤ 5000 * gx ∧ 5000 * (gy - 1) < ny * a ∧ ny * a ≤ 5000 * gy ∧
      coarse rd nx ny a = if gx * gy ≤ 65535 then .ok ⟨gx, gy, 5000⟩ else .exit := by
  have px : 0 < nx * a := Int.mul_pos hx ha
  have py : 0 < ny * a := Int.mul_pos hy ha
  obtain ⟨x1, x2⟩ := cells_spec hrd nx a px.le (by omega)
  obtain ⟨y1, y2⟩ := cells_spec hrd ny a py.le (by omega)
  refine ⟨cells rd nx a, cells rd ny a, x1, x2, y1, y2, ?_⟩
  have : cells rd nx a * cells rd ny a ≤ 46340 * 46340 :=
    Int.mul_le_mul (by omega) (by omega) (by omega) (by omega)
  unfold coarse
  dsimp only
  rw [if_neg (by omega)]
  by_cases h : cells rd nx a * cells rd ny a ≤ 65535
  · rw [if_neg (by omega), if_pos h]
  · rw [if_pos (by omega), if_neg h]

/-- C314: every pixel of the image belongs to one cell of the grid, which contains its upper left corner; the index of the cell
is inside of the arrays and fits into 16 bits. -/
theorem c314_pixel (rd : ℚ → ℚ) (hrd : ∀ x, Nearest 53 x (rd x)) (nx ny a : ℤ) (ha : 0 < a)
    (bx : nx * a < 2 ^ 53) (hby : ny * a < 2 ^ 53) (g : Verif.Brick.Grid) (hg : coarse rd nx ny a = .ok g) (i j : ℤ)
    (hi : 0 ≤ i ∧ i < ny) (hj : 0 ≤ j ∧ j < nx) :
    ∃ e f : ℤ, (0 ≤ e ∧ e < g.ny) ∧ (0 ≤ f ∧ f < g.nx) ∧ ji2ji rd ⟨nx, ny, a⟩ g i j = (e, f) ∧
      (5000 * e ≤ i * a ∧ i * a < 5000 * (e + 1)) ∧ (5000 * f ≤ j * a ∧ j * a < 5000 * (f + 1)) ∧
      ji2p rd ⟨nx, ny, a⟩ g i j = e * g.nx + f ∧ 0 ≤ e * g.nx + f ∧ e * g.nx + f < g.nx * g.ny ∧ g.nx * g.ny ≤ 65535 := by
  have hx : 0 < nx := by omega
  have hy : 0 < ny := by omega
  have px : 0 < nx * a := Int.mul_pos hx ha
  have py : 0 < ny * a := Int.mul_pos hy ha
  obtain ⟨x1, x2⟩ := cells_spec hrd nx a px.le bx
  obtain ⟨y1, y2⟩ := cells_spec hrd ny a py.le hby
  have hgg : g = ⟨cells rd nx a, cells rd ny a, 5000⟩ ∧ cells rd nx a * cells rd ny a ≤ 65535 := by
    unfold coarse at hg
    dsimp only at hg
    split at hg
    · cases hg
    · split at hg
      · cases hg
      · exact ⟨(Out.ok.inj hg).symm, by omega⟩
  obtain ⟨rfl, hn⟩ := hgg
  have key : ∀ (k n : ℤ), 0 ≤ k → k < n → n * a < 2 ^ 53 → n * a ≤ 5000 * cells rd n a →
      ∃ e : ℤ, (0 ≤ e ∧ e < cells rd n a) ∧
        scale rd ⟨nx, ny, a⟩ ⟨cells rd nx a, cells rd ny a, 5000⟩ k = e ∧ 5000 * e ≤ k * a ∧ k * a < 5000 * (e + 1) := by
    intro k n k0 kn hb hc
    have kp : 0 ≤ k * a := Int.mul_nonneg k0 ha.le
    have kl : k * a < n * a := Int.mul_lt_mul_of_pos_right kn ha
    have e1 := scale_exact rd hrd ⟨nx, ny, a⟩ ⟨cells rd nx a, cells rd ny a, 5000⟩ a 5000 0 (by simp) (by simp) ha (by norm_num)
      (by norm_num) k k0 (by omega)
    refine ⟨scale id ⟨nx, ny, a⟩ ⟨cells rd nx a, cells rd ny a, 5000⟩ k, ?_⟩
    have s : scale id ⟨nx, ny, a⟩ ⟨cells rd nx a, cells rd ny a, 5000⟩ k = ⌊((k * a : ℤ) : ℚ) / 5000⌋ := by
      unfold scale; simp only [id]; push_cast; rfl
    have f1 := Int.floor_le (((k * a : ℤ) : ℚ) / 5000)
    have f2 := Int.lt_floor_add_one (((k * a : ℤ) : ℚ) / 5000)
    rw [le_div_iff₀ (by norm_num)] at f1
    rw [div_lt_iff₀ (by norm_num)] at f2
    have f1' : ⌊((k * a : ℤ) : ℚ) / 5000⌋ * 5000 ≤ k * a := by exact_mod_cast f1
    have f2' : k * a < (⌊((k * a : ℤ) : ℚ) / 5000⌋ + 1) * 5000 := by exact_mod_cast f2
    rw [e1, s]
    refine ⟨⟨by omega, by omega⟩, rfl, by omega, by omega⟩
  obtain ⟨e, he, se, e1, e2⟩ := key i ny hi.1 hi.2 hby y2
  obtain ⟨f, hf, sf, f1, f2⟩ := key j nx hj.1 hj.2 bx x2
  refine ⟨e, f, he, hf, ?_, ⟨e1, e2⟩, ⟨f1, f2⟩, ?_, ?_, ?_, hn⟩
  · unfold ji2ji; rw [se, sf]
  · unfold ji2p; dsimp only; rw [se, sf]
  · have : 0 ≤ e * cells rd nx a := Int.mul_nonneg he.1 (by omega)
    show 0 ≤ e * cells rd nx a + f
    omega
  · have : (e + 1) * cells rd nx a ≤ cells rd ny a * cells rd nx a :=
      Int.mul_le_mul_of_nonneg_right (by omega) (by omega)
    have e' : (e + 1) * cells rd nx a = e * cells rd nx a + cells rd nx a := by ring
    show e * cells rd nx a + f < cells rd nx a * cells rd ny a
    rw [Int.mul_comm (cells rd nx a)]
    omega

/-- A Sentinel-2 image: 10980 pixels of 10 m, 22 cells in each direction. -/
example (rd : ℚ → ℚ) (hrd : ∀ x, Nearest 53 x (rd x)) : coarse rd 10980 10980 (10 : ℤ) = .ok ⟨22, 22, 5000⟩ := by
  obtain ⟨gx, gy, a, b, c, d, h⟩ := c314_grid rd hrd 10980 10980 10 (by norm_num) (by norm_num) (by norm_num) (by norm_num)
    (by norm_num)
  obtain rfl : gx = 22 := by omega
  obtain rfl : gy = 22 := by omega
  rw [h, if_pos (by norm_num)]

/-- A rounding function exists. -/
example : ∃ rd : ℚ → ℚ, ∀ x, Nearest 53 x (rd x) := exists_round 53 (by norm_num)

end Verif.Grid
