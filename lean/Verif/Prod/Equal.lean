import Verif.FloatErr
import Mathlib.Tactic.Linarith
import Mathlib.Tactic.NormNum
import Mathlib.Tactic.Positivity
import Mathlib.Tactic.Ring

/-!
# Model of the test for nodata, and C148

`fequal` (utils-cl.c:200-212) and `is_brick_nodata` (brick_base-cl.c:1943-1946) with `get_brick`
(brick_base-cl.c:2463-2486).

Simplifications: a `float` is a rational number; `fl` rounds to the nearest number with 24 bits, with any choice
at ties. Overflow, infinity, not-a-number and denormalised numbers are not modelled. The integer types are
integers of any size.
-/

namespace Verif.Prod

open Verif.Float

/-- utils-cl.c:200-212 `fequal`: `FLT_EPSILON` is 2^-23. The absolute value is exact. -/
def fequal (fl : ℚ → ℚ) (a b : ℚ) : Bool :=
  decide (|fl (a - b)| ≤ fl (max |a| |b| * (1 / 2 ^ 23)))

/-- brick_base-cl.c:2463-2486 `get_brick` for the integer data types: the cast to `float`. -/
def getInt (fl : ℚ → ℚ) (v : Int) : ℚ := fl v

/-- brick_base-cl.c:1943-1946 `is_brick_nodata`, in a brick of an integer type. The nodata value is an `int`. -/
def isNodataInt (fl : ℚ → ℚ) (v nodata : Int) : Bool := fequal fl (getInt fl v) (fl nodata)

/-- brick_base-cl.c:1943-1946 `is_brick_nodata`, in a brick of the type `float`. -/
def isNodataFloat (fl : ℚ → ℚ) (v : ℚ) (nodata : Int) : Bool := fequal fl v (fl nodata)

private theorem rep_scale {x : ℚ} (h : Rep 24 x) (k : Int) : Rep 24 (x * (2 : ℚ) ^ k) := by
  obtain ⟨m, e, hm, rfl⟩ := h
  exact ⟨m, e + k, hm, by rw [zpow_add₀ (by norm_num)]; ring⟩

private theorem eps : (1 / 2 ^ 23 : ℚ) = (2 : ℚ) ^ (-23 : Int) := by norm_num

private theorem rep_abs {x : ℚ} (h : Rep 24 x) : Rep 24 |x| := by
  obtain ⟨m, e, hm, rfl⟩ := h
  refine ⟨|m|, e, by rwa [abs_abs], ?_⟩
  rw [abs_mul, abs_of_pos (show (0 : ℚ) < 2 ^ e by positivity)]
  simp

private theorem rep_max {x y : ℚ} (hx : Rep 24 x) (hy : Rep 24 y) : Rep 24 (max x y) := by
  rcases max_choice x y with h | h <;> rw [h] <;> assumption

/-- For two floats, the right-hand side of the test is exact. -/
private theorem tolerance {fl : ℚ → ℚ} (hfl : ∀ x, Nearest 24 x (fl x)) {a b : ℚ} (ha : Rep 24 a) (hb : Rep 24 b) :
    fl (max |a| |b| * (1 / 2 ^ 23)) = max |a| |b| * (1 / 2 ^ 23) := by
  apply eq_of_nearest_rep _ (hfl _)
  rw [eps]
  exact rep_scale (rep_max (rep_abs ha) (rep_abs hb)) _

/-- C148: in a brick of an integer type, a pixel counts as nodata if and only if it holds the nodata value, for
all values and all nodata values up to 2^22 (FORCE uses −9999, 0, 1 and 255). -/
theorem c148_integers {fl : ℚ → ℚ} (hfl : ∀ x, Nearest 24 x (fl x)) (v nodata : Int) (hn : |nodata| ≤ 4194304) :
    isNodataInt fl v nodata = true ↔ v = nodata := by
  have hrn : Rep 24 (nodata : ℚ) := rep_int (by norm_num; linarith)
  have en : fl nodata = nodata := eq_of_nearest_rep hrn (hfl _)
  unfold isNodataInt getInt fequal
  rw [decide_eq_true_eq, en, tolerance hfl (hfl v).1 hrn]
  by_cases hv : |v| < 8388608
  · have hrv : Rep 24 (v : ℚ) := rep_int (by norm_num; linarith)
    have ev : fl v = v := eq_of_nearest_rep hrv (hfl _)
    have ed : fl ((v : ℚ) - nodata) = v - nodata := by
      apply eq_of_nearest_rep _ (hfl _)
      rw [← Int.cast_sub]
      apply rep_int
      have := abs_sub v nodata
      norm_num; linarith
    rw [ev, ed]
    constructor
    · intro h
      by_contra hne
      have h1 : 1 ≤ |v - nodata| := Int.one_le_abs (sub_ne_zero.2 hne)
      have h1' : (1 : ℚ) ≤ |(v : ℚ) - nodata| := by
        rw [← Int.cast_sub, ← Int.cast_abs]; exact_mod_cast h1
      have hm : max |(v : ℚ)| |(nodata : ℚ)| < 8388608 := by
        rw [← Int.cast_abs, ← Int.cast_abs]
        apply max_lt
        · exact_mod_cast hv
        · exact_mod_cast (by omega : |nodata| < 8388608)
      linarith
    · rintro rfl
      rw [sub_self, abs_zero]
      positivity
  · constructor
    · intro h
      exfalso
      have hvq : (8388608 : ℚ) ≤ |(v : ℚ)| := by rw [← Int.cast_abs]; exact_mod_cast not_lt.1 hv
      have e1 := nearest_err (by norm_num) (hfl v)
      have e2 := nearest_err (by norm_num) (hfl (fl v - nodata))
      have hnq : |(nodata : ℚ)| ≤ 4194304 := by rw [← Int.cast_abs]; exact_mod_cast hn
      have t1 := abs_sub_abs_le_abs_sub (v : ℚ) (fl v)
      have t2 := abs_sub_abs_le_abs_sub (fl v) (nodata : ℚ)
      have t3 := abs_sub_abs_le_abs_sub (fl v - nodata) (fl (fl v - nodata))
      have hm : max |fl v| |(nodata : ℚ)| ≤ |fl v| := by
        apply max_le le_rfl
        norm_num at e1
        linarith
      norm_num at e1 e2 h
      linarith
    · rintro rfl
      omega

/-- C148: if the nodata value is 0, a pixel of a brick of any type counts as nodata if and only if it is 0. -/
theorem c148_zero {fl : ℚ → ℚ} (hfl : ∀ x, Nearest 24 x (fl x)) (v : ℚ) (hv : Rep 24 v) :
    isNodataFloat fl v 0 = true ↔ v = 0 := by
  have h0 : Rep 24 (0 : ℚ) := by simpa using rep_int (p := 24) (k := 0) (by norm_num)
  have e0 : fl ((0 : Int) : ℚ) = 0 := by simpa using eq_of_nearest_rep h0 (hfl _)
  unfold isNodataFloat fequal
  rw [decide_eq_true_eq, e0, tolerance hfl hv h0, sub_zero, eq_of_nearest_rep hv (hfl v), abs_zero,
    max_eq_left (abs_nonneg v)]
  constructor
  · intro h
    have := abs_nonneg v
    exact abs_eq_zero.1 (by linarith)
  · rintro rfl
    norm_num

/-- C148: a pixel that holds the nodata value always counts as nodata. -/
theorem c148_detected {fl : ℚ → ℚ} (hfl : ∀ x, Nearest 24 x (fl x)) (nodata : Int) :
    isNodataFloat fl (fl nodata) nodata = true := by
  have h0 : Rep 24 (0 : ℚ) := by simpa using rep_int (p := 24) (k := 0) (by norm_num)
  unfold isNodataFloat fequal
  rw [decide_eq_true_eq, tolerance hfl (hfl _).1 (hfl _).1, sub_self, eq_of_nearest_rep h0 (hfl 0), abs_zero]
  positivity

/-- C148, for the type `float`: no value that is farther from the nodata value than 2.4e-7 times the larger of both
counts as nodata. Missing: the values within that distance, see `c148_neighbours_violated`. -/
theorem c148_float_partial {fl : ℚ → ℚ} (hfl : ∀ x, Nearest 24 x (fl x)) (v : ℚ) (hv : Rep 24 v) (nodata : Int)
    (hn : |nodata| ≤ 16777216) (hfar : max |v| |(nodata : ℚ)| * (24 / 100000000) < |v - nodata|) :
    isNodataFloat fl v nodata = false := by
  have hrn : Rep 24 (nodata : ℚ) := rep_int (by norm_num; linarith)
  unfold isNodataFloat fequal
  rw [decide_eq_false_iff_not, eq_of_nearest_rep hrn (hfl _), tolerance hfl hv hrn]
  have e2 := nearest_err (by norm_num) (hfl (v - nodata))
  have t3 := abs_sub_abs_le_abs_sub (v - nodata) (fl (v - nodata))
  have hm : 0 ≤ max |v| |(nodata : ℚ)| := le_trans (abs_nonneg v) (le_max_left _ _)
  generalize max |v| |(nodata : ℚ)| = M at *
  norm_num at e2 ⊢
  linarith

/-- C148, violated: in a brick of the type `float`, the two `float` numbers next to the nodata value count as
nodata, too, whatever the nodata value is (a number with 24 significant bits `m`, other than a power of two). -/
theorem c148_neighbours_violated {fl : ℚ → ℚ} (hfl : ∀ x, Nearest 24 x (fl x)) (nodata m e s : Int)
    (hm : 8388608 < |m|) (hm' : |m| < 16777215) (hn : (nodata : ℚ) = m * (2 : ℚ) ^ e) (hs : s = 1 ∨ s = -1) :
    Rep 24 ((m + s : Int) * (2 : ℚ) ^ e) ∧ ((m + s : Int) * (2 : ℚ) ^ e : ℚ) ≠ nodata ∧
      isNodataFloat fl ((m + s : Int) * (2 : ℚ) ^ e) nodata = true := by
  have hp : (0 : ℚ) < 2 ^ e := by positivity
  have hs1 : |s| = 1 := by rcases hs with rfl | rfl <;> rfl
  have hr : Rep 24 ((m + s : Int) * (2 : ℚ) ^ e) := by
    refine ⟨_, e, ?_, rfl⟩
    have := abs_add_le m s
    norm_num
    linarith
  have hrn : Rep 24 (nodata : ℚ) := ⟨m, e, by norm_num; linarith, hn⟩
  refine ⟨hr, ?_, ?_⟩
  · rw [hn]
    intro h
    have h2 := mul_right_cancel₀ hp.ne' h
    have h3 : m + s = m := by exact_mod_cast h2
    rcases hs with rfl | rfl <;> omega
  · have hd : ((m + s : Int) * (2 : ℚ) ^ e - nodata : ℚ) = s * (2 : ℚ) ^ e := by
      rw [hn]; push_cast; ring
    have hrd : Rep 24 (s * (2 : ℚ) ^ e : ℚ) := ⟨s, e, by rw [hs1]; norm_num, rfl⟩
    unfold isNodataFloat fequal
    rw [decide_eq_true_eq, eq_of_nearest_rep hrn (hfl _), tolerance hfl hr hrn, hd, eq_of_nearest_rep hrd (hfl _)]
    have hsq : |(s : ℚ)| = 1 := by rw [← Int.cast_abs, hs1]; rfl
    have h1 : |(nodata : ℚ)| = |(m : ℚ)| * 2 ^ e := by rw [hn, abs_mul, abs_of_pos hp]
    have h2 : (8388608 : ℚ) < |(m : ℚ)| := by rw [← Int.cast_abs]; exact_mod_cast hm
    have h3 := le_max_right |((m + s : Int) * (2 : ℚ) ^ e : ℚ)| |(nodata : ℚ)|
    rw [h1] at h3 ⊢
    rw [abs_mul, hsq, abs_of_pos hp]
    generalize max |((m + s : Int) * (2 : ℚ) ^ e : ℚ)| (|(m : ℚ)| * 2 ^ e) = M at *
    have h4 : 8388608 * (2 : ℚ) ^ e ≤ |(m : ℚ)| * 2 ^ e := mul_le_mul_of_nonneg_right h2.le hp.le
    norm_num
    linarith

end Verif.Prod
