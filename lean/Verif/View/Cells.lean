import Verif.View.Model
import Verif.FloatErr
import Verif.Index.Lemmas
import Verif.Brick.Props
import Verif.Ml.Prob

/-! # Coarse cells -/

namespace Verif.View

open Verif.Float (Nearest nearest_err nearest_unique_of_ge eq_of_nearest_rep)
open Verif.Index (truncQ)

/-! ## Missing angles of Sentinel-2 -/

theorem quotient_near (flt : ℚ → ℚ) (hf : ∀ x, Nearest 24 x (flt x)) (res : ℚ) (n e : Nat) (hn : 0 < n) (hr : res * n = 5000)
    (hb : n * e < 2 ^ 22) : 0 ≤ flt (e / flt (res / 5000)) ∧ |flt (e / flt (res / 5000)) - n * e| < 1 := by
  have hn' : (0 : ℚ) < n := by exact_mod_cast hn
  have e0 : res / 5000 = 1 / n := by rw [div_eq_div_iff (by norm_num) hn'.ne']; linarith
  rw [e0]
  set r := flt (1 / n) with hrd
  have hp : (0 : ℚ) < 1 / n := by positivity
  have h1 := nearest_err (p := 24) (by norm_num) (hf (1 / n))
  rw [← hrd, abs_of_pos hp, abs_le] at h1
  have hrn : (1 - 1 / 2 ^ 24 : ℚ) ≤ r * n ∧ r * n ≤ 1 + 1 / 2 ^ 24 := by
    have : (1 / n : ℚ) * n = 1 := by field_simp
    constructor
    · have := mul_le_mul_of_nonneg_right (show (1 / n : ℚ) - 1 / n / 2 ^ 24 ≤ r by linarith [h1.2]) hn'.le
      calc _ = ((1 / n : ℚ) * n) - ((1 / n : ℚ) * n) / 2 ^ 24 := by rw [‹(1 / n : ℚ) * n = 1›]
        _ = ((1 / n : ℚ) - 1 / n / 2 ^ 24) * n := by ring
        _ ≤ _ := this
    · have := mul_le_mul_of_nonneg_right (show r ≤ (1 / n : ℚ) + 1 / n / 2 ^ 24 by linarith [h1.1]) hn'.le
      calc _ ≤ ((1 / n : ℚ) + 1 / n / 2 ^ 24) * n := this
        _ = ((1 / n : ℚ) * n) + ((1 / n : ℚ) * n) / 2 ^ 24 := by ring
        _ = _ := by rw [‹(1 / n : ℚ) * n = 1›]
  have hrp : 0 < r := by
    by_contra hc
    push Not at hc
    have := mul_nonpos_of_nonpos_of_nonneg hc hn'.le
    have := hrn.1
    norm_num at this
    linarith
  set q := (e : ℚ) / r with hq
  have hqr : q * r = e := by rw [hq, div_mul_cancel₀ _ hrp.ne']
  have hq0 : 0 ≤ q := by positivity
  -- the quotient itself
  have hqn : q * (r * n) = n * e := by rw [← mul_assoc, hqr]; ring
  have hM : (n : ℚ) * e ≤ 2 ^ 22 - 1 := by
    have : n * e ≤ 2 ^ 22 - 1 := by omega
    have h : ((n * e : ℕ) : ℚ) ≤ ((2 ^ 22 - 1 : ℕ) : ℚ) := by exact_mod_cast this
    push_cast at h
    norm_num at h ⊢
    linarith
  have q1 : q * (1 - 1 / 2 ^ 24) ≤ n * e := by rw [← hqn]; exact mul_le_mul_of_nonneg_left hrn.1 hq0
  have q2 : (n : ℚ) * e ≤ q * (1 + 1 / 2 ^ 24) := by rw [← hqn]; exact mul_le_mul_of_nonneg_left hrn.2 hq0
  have hqM : q ≤ 2 ^ 22 := by norm_num at q1 hM ⊢; linarith
  have h2 := nearest_err (p := 24) (by norm_num) (hf q)
  rw [abs_of_nonneg hq0, abs_le] at h2
  refine ⟨?_, ?_⟩
  · norm_num at h2
    linarith [h2.1, h2.2]
  · rw [abs_lt]
    norm_num at h2 q1 q2 hqM hM ⊢
    constructor <;> linarith [h2.1, h2.2]

/-- The rows (or columns) of a coarse cell of `n` pixels. -/
def InCell (n e : Nat) (i : ℤ) : Prop := n * e ≤ i ∧ i < n * (e + 1)

theorem cellRows_near (flt : ℚ → ℚ) (hf : ∀ x, Nearest 24 x (flt x)) (res : ℚ) (n e : Nat) (hn : 0 < n) (hr : res * n = 5000)
    (hb : n * (e + 1) < 2 ^ 22) (N i : ℤ) :
    (InCell n e i → i < N → cellRows flt res e N i) ∧
    (cellRows flt res e N i → ((n : ℤ) * e - 1 ≤ i ∧ i ≤ n * (e + 1)) ∧ i < N) := by
  have hb' : n * e < 2 ^ 22 := lt_of_le_of_lt (Nat.mul_le_mul_left n (Nat.le_succ e)) hb
  obtain ⟨a1, a2⟩ := quotient_near flt hf res n e hn hr hb'
  obtain ⟨b1, b2⟩ := quotient_near flt hf res n (e + 1) hn hr hb
  rw [abs_lt] at a2 b2
  have ht : truncQ (flt (e / flt (res / 5000))) = ⌊flt (e / flt (res / 5000))⌋ := by
    exact Ml.truncQ_nonneg a1
  have t1 : ⌊flt (e / flt (res / 5000))⌋ ≤ (n : ℤ) * e := by
    rw [← Int.lt_add_one_iff, Int.floor_lt]
    push_cast
    linarith [a2.2]
  have t2 : (n : ℤ) * e - 1 ≤ ⌊flt (e / flt (res / 5000))⌋ := by
    rw [Int.le_floor]
    push_cast
    linarith [a2.1]
  push_cast at b2
  unfold cellRows InCell
  simp only [ht]
  constructor
  · rintro ⟨h1, h2⟩ h3
    refine ⟨t1.trans h1, ?_, by omega⟩
    have : ((i : ℤ) : ℚ) ≤ ((n * (e + 1) - 1 : ℤ) : ℚ) := by exact_mod_cast (by omega : i ≤ (n : ℤ) * (e + 1) - 1)
    push_cast at this
    linarith [b2.1]
  · rintro ⟨h1, h2, h3⟩
    refine ⟨⟨t2.trans h1, ?_⟩, by omega⟩
    have : ((i : ℤ) : ℚ) < ((n * (e + 1) + 1 : ℤ) : ℚ) := by push_cast; linarith [b2.2]
    have : i < (n : ℤ) * (e + 1) + 1 := by exact_mod_cast this
    omega

/-- C115: with cells of `n` pixels, a pixel of a cell without view angles is set off; pixels that are set off are at most one pixel away from
such a cell. -/
theorem c115_off_partial (flt : ℚ → ℚ) (hf : ∀ x, Nearest 24 x (flt x)) (res : ℚ) (n : Nat) (hn : 0 < n) (hr : res * n = 5000)
    (ny nx : ℤ) (missing : Nat → Nat → Prop)
    (hb : ∀ e f, missing e f → n * (e + 1) < 2 ^ 22 ∧ n * (f + 1) < 2 ^ 22) (i j : ℤ) :
    ((∃ e f, missing e f ∧ InCell n e i ∧ InCell n f j) → i < ny → j < nx → setOff flt res ny nx missing i j) ∧
    (setOff flt res ny nx missing i j → (i < ny ∧ j < nx) ∧
      ∃ e f i' j', missing e f ∧ InCell n e i' ∧ InCell n f j' ∧ |i - i'| ≤ 1 ∧ |j - j'| ≤ 1) := by
  have near : ∀ (e : Nat) (i : ℤ), (n : ℤ) * e - 1 ≤ i ∧ i ≤ n * (e + 1) → ∃ i', InCell n e i' ∧ |i - i'| ≤ 1 := by
    intro e i h
    have hs : (n : ℤ) * (e + 1) = n * e + n := by ring
    unfold InCell
    rw [hs] at h ⊢
    have hn' : (0 : ℤ) < n := by exact_mod_cast hn
    generalize (n : ℤ) * e = m at h ⊢
    rcases lt_or_ge i m with h1 | h1
    · exact ⟨m, ⟨le_rfl, by omega⟩, by rw [abs_le]; omega⟩
    · rcases lt_or_ge i (m + n) with h2 | h2
      · exact ⟨i, ⟨h1, h2⟩, by simp⟩
      · exact ⟨m + n - 1, by omega, by rw [abs_le]; omega⟩
  constructor
  · rintro ⟨e, f, hm, h1, h2⟩ hi hj
    obtain ⟨b1, b2⟩ := hb e f hm
    exact ⟨e, f, hm, (cellRows_near flt hf res n e hn hr b1 ny i).1 h1 hi, (cellRows_near flt hf res n f hn hr b2 nx j).1 h2 hj⟩
  · rintro ⟨e, f, hm, h1, h2⟩
    obtain ⟨b1, b2⟩ := hb e f hm
    obtain ⟨c1, c2⟩ := (cellRows_near flt hf res n e hn hr b1 ny i).2 h1
    obtain ⟨d1, d2⟩ := (cellRows_near flt hf res n f hn hr b2 nx j).2 h2
    obtain ⟨i', g1, g2⟩ := near e i c1
    obtain ⟨j', k1, k2⟩ := near f j d1
    exact ⟨⟨c2, d2⟩, e, f, i', j', hm, g1, k1, g2, k2⟩

/-- C115, violated: for images of 10 m (500 pixels in a cell), rounding sets off one row of pixels of the cell above, although it has
view angles: row 499, if a cell of the second row has none. -/
theorem c115_neighbour_violated (flt : ℚ → ℚ) (hf : ∀ x, Nearest 24 x (flt x)) (ny nx : ℤ) (hy : 500 ≤ ny) (f : Nat)
    (hb : 500 * (f + 1) < 2 ^ 22) (missing : Nat → Nat → Prop) (hm : missing 1 f) (j : ℤ) (hj : InCell 500 f j) (hx : j < nx) :
    setOff flt 10 ny nx missing 499 j ∧ InCell 500 0 499 := by
  refine ⟨⟨1, f, hm, ?_, (cellRows_near flt hf 10 500 f (by norm_num) (by norm_num) hb nx j).1 hj hx⟩, by unfold InCell; norm_num⟩
  have h1 : flt (10 / 5000) = 8589935 * (2 : ℚ) ^ (-32 : ℤ) :=
    nearest_unique_of_ge (by norm_num) (hf _) 8589935 (-32) (by norm_num) (by norm_num [zpow_neg]) (by norm_num [abs_lt, zpow_neg])
  have h2 : flt ((1 : Nat) / flt (10 / 5000)) = 16383999 * (2 : ℚ) ^ (-15 : ℤ) := by
    rw [h1]
    exact nearest_unique_of_ge (by norm_num) (hf _) 16383999 (-15) (by norm_num) (by norm_num [zpow_neg])
      (by norm_num [abs_lt, zpow_neg])
  unfold cellRows
  simp only [h2]
  obtain ⟨b1, b2⟩ := quotient_near flt hf 10 500 2 (by norm_num) (by norm_num) (by norm_num)
  rw [abs_lt] at b2
  refine ⟨?_, ?_, by omega⟩
  · rw [Ml.truncQ_nonneg (by positivity), ← Int.lt_add_one_iff, Int.floor_lt]
    norm_num [zpow_neg]
  · push_cast at b2 ⊢
    norm_num at b2 ⊢
    linarith [b2.1]

/-! ## Sun -/

/-- C114: for whole resolutions, a valid pixel gets the flag of low sun exactly if the zenith angle of the sun in the coarse cell that contains
it is more than 1.308997 (75 degrees). -/
theorem c114_lowsun (rd : ℚ → ℚ) (hrd : ∀ x, Nearest 53 x (rd x)) (src dst : Brick.Grid) (a b : ℤ) (ha : 0 < a) (hb : 0 < b)
    (hab : b ≤ 2 ^ 53) (hs : src.res = a) (hd : dst.res = b) (off : ℤ → Bool) (zen : ℤ → ℚ) (i j e f : ℤ) (hi : 0 ≤ i)
    (hj : 0 ≤ j ∧ j < src.nx) (hi' : i * a < 2 ^ 53) (hj' : j * a < 2 ^ 53)
    (he : e * b ≤ i * a ∧ i * a < (e + 1) * b) (hf : f * b ≤ j * a ∧ j * a < (f + 1) * b) :
    lowsun rd src dst off zen (i * src.nx + j) = true ↔
      off (i * src.nx + j) = false ∧ zen (e * dst.nx + f) > 1308997 / 1000000 := by
  have pos : 0 < src.nx := by omega
  have hdiv : Int.tdiv (i * src.nx + j) src.nx = i := by
    have nn : 0 ≤ i * src.nx := Int.mul_nonneg hi pos.le
    rw [Int.tdiv_eq_ediv_of_nonneg (by omega), Int.add_comm, Int.add_mul_ediv_right _ _ (by omega),
      Int.ediv_eq_zero_of_lt hj.1 hj.2, Int.zero_add]
  have hb' : (0 : ℚ) < b := by exact_mod_cast hb
  have sc : ∀ m e : ℤ, 0 ≤ m → m * a < 2 ^ 53 → e * b ≤ m * a ∧ m * a < (e + 1) * b → Brick.scale rd src dst m = e := by
    intro m e h0 h1 h2
    rw [Brick.scale_exact rd hrd src dst a b 0 (by simpa using hs) (by simpa using hd) ha hb hab m h0 h1]
    unfold Brick.scale
    simp only [id]
    rw [hs, hd, Int.floor_eq_iff, le_div_iff₀ hb', div_lt_iff₀ hb']
    exact ⟨by exact_mod_cast h2.1, by exact_mod_cast h2.2⟩
  have hp : Brick.p2p rd src dst (i * src.nx + j) = e * dst.nx + f := by
    unfold Brick.p2p
    simp only [hdiv]
    rw [sc i e hi hi' he, show i * src.nx + j - i * src.nx = j by ring, sc j f hj.1 hj' hf]
  unfold lowsun
  rw [hp]
  cases off (i * src.nx + j) <;> simp

/-- C114, partial: the sun angles of the first row of coarse cells are those of the upper left corners of the cells. -/
theorem c114_first_row_partial (warp : ℝ × ℝ → ℝ × ℝ) (g : Geo) (f : Nat) :
    sunLocation warp g 0 f = warp (g.ulx + f * 5000, g.uly) := by
  unfold sunLocation brickGeo
  simp

/-- C114, violated: the sun angles of the other rows are not those of a location in the cell: row `e` extends from `5000 * e` to `5000 * (e + 1)`
metres south of the upper edge of the image, the location is `5000 * e` metres north of it. -/
theorem c114_north_violated (g : Geo) (e f : Nat) (he : 0 < e) :
    (sunLocation id g e f).2 = g.uly + 5000 * e ∧ g.uly < (sunLocation id g e f).2 ∧
    (sunLocation id g e f).2 - (g.uly - 5000 * e) = 10000 * e := by
  have h : (sunLocation id g e f).2 = g.uly + e * 5000 := rfl
  have he' : (0 : ℝ) < e := by exact_mod_cast he
  rw [h]
  exact ⟨by ring, by linarith, by ring⟩

end Verif.View
