import Mathlib.Data.Rat.Floor
import Mathlib.Tactic.Linarith
import Mathlib.Tactic.NormNum
import Mathlib.Tactic.Ring
import Mathlib.Tactic.FieldSimp
import Mathlib.Tactic.Positivity
import Verif.FloatErr
import Verif.Index.Model
import Verif.Index.Spec

namespace Verif.Index

open Verif.Float Verif.Str

theorem truncQ_eq (x : ℚ) : truncQ x = if 0 ≤ x then ⌊x⌋ else ⌈x⌉ := by
  unfold truncQ
  split
  · rename_i h
    rw [Rat.floor_def']
    exact Int.tdiv_eq_ediv_of_nonneg (Rat.num_nonneg.2 h)
  · rename_i h
    have h1 : x.num < 0 := Rat.num_neg.2 (not_le.1 h)
    rw [Rat.ceil_def', ← Int.tdiv_eq_ediv_of_nonneg (by omega), Int.neg_tdiv, neg_neg]

theorem truncQ_abs (x : ℚ) : |(truncQ x : ℚ)| ≤ |x| ∧ |x| < |(truncQ x : ℚ)| + 1 ∧ 0 ≤ (truncQ x : ℚ) * x := by
  rw [truncQ_eq]
  split
  · rename_i h
    have h0 : (0 : ℚ) ≤ (⌊x⌋ : ℚ) := by exact_mod_cast Int.floor_nonneg.2 h
    rw [abs_of_nonneg h0, abs_of_nonneg h]
    exact ⟨Int.floor_le x, Int.lt_floor_add_one x, mul_nonneg h0 h⟩
  · rename_i h
    have h := not_le.1 h
    have h0 : ((⌈x⌉ : ℤ) : ℚ) ≤ 0 := by
      have : ⌈x⌉ ≤ 0 := Int.ceil_le.2 (by simpa using h.le)
      exact_mod_cast this
    rw [abs_of_nonpos h0, abs_of_neg h]
    have h1 := Int.le_ceil x
    have h2 := Int.ceil_lt_add_one x
    exact ⟨by linarith, by linarith, mul_nonneg_of_nonpos_of_nonpos h0 h.le⟩

theorem integerPart (x : ℚ) : Spec.IntegerPart (truncQ x) (x : ℝ) := by
  have h := truncQ_abs x
  unfold Spec.IntegerPart
  refine ⟨?_, ?_, ?_⟩
  · exact_mod_cast h.1
  · exact_mod_cast h.2.1
  · exact_mod_cast h.2.2

theorem short_ok {x : ℚ} (h1 : -32769 < x) (h2 : x < 32768) : short x = .ok (truncQ x) := by
  unfold short
  rw [if_pos]
  rw [truncQ_eq]
  split
  · rename_i h
    have := Int.floor_nonneg.2 h
    have : ⌊x⌋ < 32768 := Int.floor_lt.2 (by exact_mod_cast h2)
    omega
  · rename_i h
    have h := not_le.1 h
    have : ⌈x⌉ ≤ 0 := Int.ceil_le.2 (by simpa using h.le)
    have : -32769 < ⌈x⌉ := Int.lt_ceil.2 (by exact_mod_cast h1)
    omega

theorem short_ub {x : ℚ} (h : 32768 ≤ x ∨ x ≤ -32769) : short x = .ub := by
  unfold short
  rw [if_neg]
  rw [truncQ_eq]
  rcases h with h | h
  · rw [if_pos (by linarith)]
    have : 32768 ≤ ⌊x⌋ := Int.le_floor.2 (by exact_mod_cast h)
    omega
  · rw [if_neg (by linarith)]
    have : ⌈x⌉ ≤ -32769 := Int.ceil_le.2 (by exact_mod_cast h)
    omega

/-- A value that is close to a number in range is stored. -/
theorem short_stored {y : ℚ} {x e : ℝ} (h : |(y : ℝ) - x| ≤ e) (h1 : -32769 + e < x) (h2 : x < 32768 - e) :
    ∃ v, short y = .ok v ∧ Spec.Stored e v x := by
  have ha := abs_le.1 h
  refine ⟨truncQ y, short_ok ?_ ?_, y, h, integerPart y⟩
  · have : (-32769 : ℝ) < (y : ℝ) := by linarith
    exact_mod_cast this
  · have : (y : ℝ) < (32768 : ℝ) := by linarith
    exact_mod_cast this

theorem short_overflow {y : ℚ} {x e : ℝ} (h : |(y : ℝ) - x| ≤ e) (h1 : 32768 + e ≤ x ∨ x ≤ -32769 - e) :
    short y = .ub := by
  have ha := abs_le.1 h
  apply short_ub
  rcases h1 with h1 | h1
  · left
    have : (32768 : ℝ) ≤ (y : ℝ) := by linarith
    exact_mod_cast this
  · right
    have : (y : ℝ) ≤ (-32769 : ℝ) := by linarith
    exact_mod_cast this

section Round
variable {f : ℚ → ℚ} (hf : ∀ x, Nearest 24 x (f x))
include hf

/-- Multiples of one half below 2^23 are kept. -/
theorem f_half {x : ℚ} (k : Int) (hk : |k| ≤ 16777216) (hx : x = (k : ℚ) / 2) : f x = x := by
  refine eq_of_nearest_rep ⟨k, -1, by simpa using hk, ?_⟩ (hf x)
  rw [hx]; simp [div_eq_mul_inv]

theorem f_int (k : Int) (hk : |k| ≤ 16777216) : f (k : ℚ) = k :=
  eq_of_nearest_rep (rep_int (by simpa using hk)) (hf _)

theorem f_err (x : ℚ) : |f x - x| ≤ |x| / 16777216 := by
  have := nearest_err (by norm_num) (hf x)
  rw [abs_sub_comm] at this
  norm_num at this ⊢
  exact this

/-- Error of a rounded result whose argument is known up to an error. -/
theorem f_acc {x y e B : ℚ} (h : |x - y| ≤ e) (hB : |y| ≤ B) : |f x - y| ≤ e + (B + e) / 16777216 := by
  have h1 := f_err hf x
  have h2 : |x| ≤ B + e := by
    have := abs_sub_abs_le_abs_sub x y
    linarith
  have h3 : |f x - y| ≤ |f x - x| + |x - y| := abs_sub_le _ _ _
  have h4 : |x| / 16777216 ≤ (B + e) / 16777216 := by
    apply div_le_div_of_nonneg_right h2 (by norm_num)
  linarith

theorem f_mono {x y : ℚ} (h : x ≤ y) : f x ≤ f y := by
  by_contra hc
  have hc := not_le.1 hc
  have h1 := (hf x).2 _ (hf y).1
  have h2 := (hf y).2 _ (hf x).1
  have hx : x ≠ y := by rintro rfl; exact absurd hc (lt_irrefl _)
  have hlt : x < y := lt_of_le_of_ne h hx
  -- `f x` is at least as near to `x`, `f y` at least as near to `y`
  rcases abs_cases (x - f x) with a | a <;> rcases abs_cases (x - f y) with b | b <;>
  rcases abs_cases (y - f x) with c | c <;> rcases abs_cases (y - f y) with e | e <;> linarith

theorem f_nonneg {x : ℚ} (h : 0 ≤ x) : 0 ≤ f x := by
  have := f_mono hf h
  rwa [show f 0 = 0 by simpa using f_int hf 0 (by norm_num)] at this

end Round

end Verif.Index
