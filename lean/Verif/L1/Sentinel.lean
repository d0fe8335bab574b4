import Verif.L1.Model
import Verif.Index.Lemmas
import Verif.FloatErr

/-!
# C119: Sentinel-2 reflectance
-/

namespace Verif.L1

open Verif.Str (Out)
open Verif.Float
open Verif.Index (truncQ truncQ_eq truncQ_abs short_ok short_ub)

/-- The value before the conversion to 16 bits. -/
theorem sentinel_near {flt : ℚ → ℚ} (hf : ∀ x, Nearest 24 x (flt x)) (scale : ℚ) (hs : 0 < scale) (radd : ℤ) (dn : ℕ) (hd : dn ≤ 65535)
    (hr : |radd| ≤ 65535) (y : ℚ) (hy : y = (dn + radd) * 10000 / scale) :
    |flt (flt (flt (dn + radd) / scale) * 10000) - y| ≤ |y| / 2 ^ 22 := by
  have e0 : flt (dn + radd) = dn + radd := by
    refine eq_of_nearest_rep ?_ (hf _)
    have := rep_int (p := 24) (k := (dn : ℤ) + radd) (by rw [abs_le] at hr ⊢; norm_num; omega)
    push_cast at this
    exact this
  rw [e0]
  have e1 := nearest_err (by norm_num) (hf (((dn : ℚ) + radd) / scale))
  have e2 := nearest_err (by norm_num) (hf (flt (((dn : ℚ) + radd) / scale) * 10000))
  have hy' : y = ((dn : ℚ) + radd) / scale * 10000 := by rw [hy]; ring
  generalize ((dn : ℚ) + radd) / scale = z at *
  generalize flt z = w at *
  generalize flt (w * 10000) = u at *
  subst hy'
  have b1 : |w * 10000 - z * 10000| ≤ |z * 10000| / 2 ^ 24 := by
    rw [← sub_mul, abs_mul, abs_mul, abs_sub_comm]
    have h : |(10000 : ℚ)| = 10000 := by norm_num
    rw [h]
    linarith
  have b2 : |w * 10000| ≤ |z * 10000| + |z * 10000| / 2 ^ 24 := by
    have := abs_sub_abs_le_abs_sub (w * 10000) (z * 10000)
    linarith
  rw [abs_sub_comm] at e2
  have b3 : |u - z * 10000| ≤ |u - w * 10000| + |w * 10000 - z * 10000| := by
    have := abs_add_le (u - w * 10000) (w * 10000 - z * 10000)
    rwa [sub_add_sub_cancel] at this
  have p : 0 ≤ |z * 10000| := abs_nonneg _
  have b4 : |w * 10000| / 2 ^ 24 ≤ (|z * 10000| + |z * 10000| / 2 ^ 24) / 2 ^ 24 := by
    apply div_le_div_of_nonneg_right b2
    positivity
  norm_num at *
  linarith [abs_nonneg z]

/-- C119, partial: if the reflectance `(DN + offset) / scale` is `n / 10000` for a whole number `n` (the scale is 10000, or 1000 in old products), the
product has `n`, or the next whole number towards 0. Missing: it is not always `n`. -/
theorem c119_value_partial (flt : ℚ → ℚ) (hf : ∀ x, Nearest 24 x (flt x)) (scale : ℚ) (hs : 0 < scale) (radd : ℤ) (dn : ℕ) (hd : dn ≤ 65535)
    (hr : |radd| ≤ 65535) (n : ℤ) (hn : ((dn : ℚ) + radd) / scale = n / 10000) (h : |n| ≤ 32767) :
    ∃ v, sentinel flt scale radd dn = .ok v ∧ (v = n ∨ v = n - n.sign) := by
  have hb := sentinel_near hf scale hs radd dn hd hr n (by
    rw [mul_div_right_comm, hn]
    ring)
  unfold sentinel
  generalize flt (flt (flt (dn + radd) / scale) * 10000) = u at hb
  have hq : |(n : ℚ)| ≤ 32767 := by exact_mod_cast h
  have hb' : |u - n| ≤ 1 / 100 := by
    refine hb.trans ?_
    rw [div_le_iff₀ (by positivity)]
    norm_num
    linarith
  rw [abs_le] at hb' hq
  refine ⟨truncQ u, short_ok (by linarith) (by linarith), ?_⟩
  rcases lt_trichotomy n 0 with h0 | h0 | h0
  · have h1 : (n : ℚ) ≤ -1 := by exact_mod_cast (show n ≤ -1 by omega)
    rw [truncQ_eq, if_neg (by linarith), Int.sign_eq_neg_one_of_neg h0]
    have a : n ≤ ⌈u⌉ := by
      have : n - 1 < ⌈u⌉ := Int.lt_ceil.2 (by push_cast; linarith)
      omega
    have b : ⌈u⌉ ≤ n + 1 := Int.ceil_le.2 (by push_cast; linarith)
    omega
  · subst h0
    rw [Int.cast_zero, abs_zero, zero_div, sub_zero] at hb
    have : u = 0 := abs_eq_zero.1 (le_antisymm hb (abs_nonneg _))
    subst this
    left
    rw [truncQ_eq]
    simp
  · have h1 : (1 : ℚ) ≤ n := by exact_mod_cast (show 1 ≤ n by omega)
    rw [truncQ_eq, if_pos (by linarith), Int.sign_eq_one_of_pos h0]
    have a : ⌊u⌋ < n + 1 := Int.floor_lt.2 (by push_cast; linarith)
    have b : n - 1 ≤ ⌊u⌋ := Int.le_floor.2 (by push_cast; linarith)
    omega

/-- C119, violated: a reflectance of 0.0007 (the digital number 7, or 1007 with the offset of -1000) becomes 6, that is 0.0006, whatever the conversion of ties. -/
theorem c119_value_violated (flt : ℚ → ℚ) (hf : ∀ x, Nearest 24 x (flt x)) (radd : ℤ) (dn : ℕ) (h : (dn : ℤ) + radd = 7) :
    sentinel flt 10000 radd dn = .ok 6 := by
  have hq : (dn : ℚ) + radd = 7 := by exact_mod_cast h
  unfold sentinel
  rw [hq]
  have e0 : flt 7 = 7 := eq_of_nearest_rep (by have := rep_int (p := 24) (k := 7) (by norm_num); exact_mod_cast this) (hf _)
  rw [e0]
  have e1 : flt (7 / 10000) = _ := nearest_unique_of_ge (by norm_num) (hf _) 12025908 (-34) (by norm_num) (by norm_num [zpow_neg]) (by norm_num [abs_lt, zpow_neg])
  rw [e1]
  have e2 := nearest_unique_of_ge (by norm_num) (hf ((12025908 : ℤ) * (2 : ℚ) ^ (-34 : ℤ) * 10000)) 14680063 (-21) (by norm_num) (by norm_num [zpow_neg]) (by norm_num [abs_lt, zpow_neg])
  rw [e2, short_ok (by norm_num [zpow_neg]) (by norm_num [zpow_neg]), truncQ_eq, if_pos (by norm_num [zpow_neg])]
  congr 1
  rw [Int.floor_eq_iff]
  norm_num [zpow_neg]

/-- C119, violated: reflectances above 3.2769 (the digital number of saturated pixels is 65535) are not limited; the conversion to 16 bits is undefined. -/
theorem c119_overflow_violated (flt : ℚ → ℚ) (hf : ∀ x, Nearest 24 x (flt x)) (scale : ℚ) (hs : 0 < scale) (radd : ℤ) (dn : ℕ) (hd : dn ≤ 65535)
    (hr : |radd| ≤ 65535) (h : 3.2769 ≤ ((dn : ℚ) + radd) / scale) : sentinel flt scale radd dn = .ub := by
  have hb := sentinel_near hf scale hs radd dn hd hr _ rfl
  unfold sentinel
  have e : ((dn : ℚ) + radd) * 10000 / scale = ((dn : ℚ) + radd) / scale * 10000 := by ring
  rw [e] at hb
  generalize hy : ((dn : ℚ) + radd) / scale = y at *
  generalize flt (flt (flt (dn + radd) / scale) * 10000) = u at *
  apply short_ub
  left
  rw [abs_of_nonneg (by linarith : 0 ≤ y * 10000), abs_le] at hb
  norm_num at hb h
  linarith [hb.1]

end Verif.L1
