import Verif.Homo.Model
import Verif.FloatErr
import Mathlib.Tactic.Linarith
import Mathlib.Tactic.NormNum
import Mathlib.Tactic.Ring
import Mathlib.Tactic.Positivity
import Mathlib.Data.Nat.Log

/-!
# The cosine of the spectral angle in double precision

Computed in floating point, the cosine of the angle between two spectra could exceed one; its arc
cosine would not be a number. It does not, whatever the spectra are.
-/

namespace Verif.Homo

open Verif.Float

/-- `s` is a nearest double to the real number `x`. -/
def NearestR (x : ℝ) (s : ℚ) : Prop := Rep 53 s ∧ ∀ f : ℚ, Rep 53 f → |x - s| ≤ |x - f|

theorem sqrt_ge {n : ℕ} (h0 : 0 < n) (hn : n < 2 ^ 40) {P r s : ℚ} (hP : (n : ℚ) ^ 2 ≤ P) (hr : Nearest 53 P r)
    (hs : NearestR (Real.sqrt r) s) : (n : ℚ) ≤ s := by
  have repn : Rep 53 (n : ℚ) := by
    have := rep_int (p := 53) (k := (n : ℤ)) (by
      rw [abs_of_nonneg (by positivity)]
      have : (n : ℤ) < 2 ^ 40 := by exact_mod_cast hn
      have : (2 : ℤ) ^ 40 ≤ 2 ^ 53 := by norm_num
      omega)
    simpa using this
  have hn0 : (0 : ℝ) < n := by exact_mod_cast h0
  -- above the square there is nothing to do
  have easy : ((n : ℚ) ^ 2 ≤ r) → (n : ℚ) ≤ s := by
    intro h
    by_contra hc
    rw [not_le] at hc
    have h1 : (n : ℝ) ≤ Real.sqrt r := by
      apply Real.le_sqrt_of_sq_le
      exact_mod_cast h
    have h2 : (s : ℝ) < n := by exact_mod_cast hc
    have h3 := hs.2 n repn
    push_cast at h3
    rw [abs_of_nonneg (by linarith), abs_of_nonneg (by linarith)] at h3
    linarith
  by_cases hrn : (n : ℚ) ^ 2 ≤ r
  · exact easy hrn
  rw [not_le] at hrn
  -- the square is not far above
  have near : (n : ℚ) ^ 2 - r ≤ (n : ℚ) ^ 2 / 2 ^ 53 := by
    obtain ⟨r', hr'⟩ := exists_nearest 53 (by norm_num) ((n : ℚ) ^ 2)
    have e1 := nearest_err (by norm_num) hr'
    rw [abs_of_nonneg (by positivity : (0 : ℚ) ≤ (n : ℚ) ^ 2)] at e1
    have e2 := hr.2 r' hr'.1
    rw [abs_of_nonneg (by linarith : (0 : ℚ) ≤ P - r)] at e2
    obtain ⟨a1, a2⟩ := abs_le.1 e1
    rcases le_total r' P with h | h
    · rw [abs_of_nonneg (by linarith)] at e2
      linarith
    · rw [abs_of_nonpos (by linarith)] at e2
      linarith
  -- exponent
  obtain ⟨k, hk1, hk2⟩ : ∃ k, 2 ^ k ≤ n ∧ n < 2 ^ (k + 1) :=
    ⟨Nat.log 2 n, Nat.pow_log_le_self 2 (by omega), Nat.lt_pow_succ_log_self (by norm_num) n⟩
  have hk : k < 40 := by
    by_contra hc
    have : 2 ^ 40 ≤ 2 ^ k := Nat.pow_le_pow_right (by norm_num) (by omega)
    omega
  by_cases hpow : n = 2 ^ k
  · exfalso
    have rep2 : Rep 53 ((n : ℚ) ^ 2) := ⟨1, 2 * k, by norm_num, by
      rw [hpow, zpow_mul]
      push_cast
      rw [one_mul, ← pow_mul, mul_comm, pow_mul]
      norm_cast⟩
    have := hr.2 _ rep2
    rw [abs_of_nonneg (by linarith), abs_of_nonneg (by linarith)] at this
    linarith
  · have hgt : 2 ^ k + 1 ≤ n := by omega
    by_contra hc
    rw [not_le] at hc
    have u0 : (0 : ℚ) < (2 : ℚ) ^ ((k : ℤ) - 52) := by positivity
    have u1 : (2 : ℚ) ^ ((k : ℤ) - 52) ≤ 1 := by
      have : (2 : ℚ) ^ ((k : ℤ) - 52) ≤ (2 : ℚ) ^ (0 : ℤ) := zpow_le_zpow_right₀ (by norm_num) (by omega)
      simpa using this
    have gap : s ≤ n - (2 : ℚ) ^ ((k : ℤ) - 52) := by
      by_cases hsk : (2 : ℚ) ^ k ≤ s
      · obtain ⟨j, hj⟩ := rep_multiple (p := 53) (by norm_num) hs.1 (e := (k : ℤ) - 52) (by
          have : (k : ℤ) - 52 + (53 : ℕ) - 1 = k := by push_cast; ring
          rw [this, zpow_natCast]
          exact le_trans hsk (le_abs_self s))
        have en : (n : ℚ) = ((n * 2 ^ (52 - k) : ℕ) : ℤ) * (2 : ℚ) ^ ((k : ℤ) - 52) := by
          have : (2 : ℚ) ^ ((k : ℤ) - 52) = ((2 : ℚ) ^ (52 - k))⁻¹ := by
            rw [← zpow_natCast, ← zpow_neg]
            congr 1
            omega
          rw [this]
          push_cast
          field_simp
        rw [hj, en] at hc
        have hlt : (j : ℚ) < ((n * 2 ^ (52 - k) : ℕ) : ℤ) := lt_of_mul_lt_mul_right hc (le_of_lt u0)
        have hlt' : j + 1 ≤ ((n * 2 ^ (52 - k) : ℕ) : ℤ) := by
          have : j < ((n * 2 ^ (52 - k) : ℕ) : ℤ) := by exact_mod_cast hlt
          omega
        have hle : ((j : ℚ) + 1) ≤ ((n * 2 ^ (52 - k) : ℕ) : ℤ) := by exact_mod_cast hlt'
        have := mul_le_mul_of_nonneg_right hle (le_of_lt u0)
        rw [hj, en]
        linarith
      · rw [not_le] at hsk
        have : ((2 : ℚ) ^ k + 1) ≤ n := by exact_mod_cast hgt
        linarith
    -- the square root
    have hsq : (n : ℝ) * (1 - 1 / 2 ^ 54 - 1 / 2 ^ 107) ≤ Real.sqrt r := by
      apply Real.le_sqrt_of_sq_le
      have h1 : ((n : ℝ) ^ 2 - r) ≤ (n : ℝ) ^ 2 / 2 ^ 53 := by
        have : (((n : ℚ) ^ 2 - r : ℚ) : ℝ) ≤ (((n : ℚ) ^ 2 / 2 ^ 53 : ℚ) : ℝ) := Rat.cast_le.2 near
        push_cast at this
        exact this
      have h2 : ((1 : ℝ) - 1 / 2 ^ 54 - 1 / 2 ^ 107) ^ 2 ≤ 1 - 1 / 2 ^ 53 := by norm_num
      have h3 : (0 : ℝ) ≤ (n : ℝ) ^ 2 := by positivity
      have h4 := mul_le_mul_of_nonneg_left h2 h3
      rw [mul_pow]
      linarith
    have hlt : Real.sqrt r < n := by
      rw [Real.sqrt_lt' hn0]
      exact_mod_cast hrn
    have h3 := hs.2 n repn
    push_cast at h3
    rw [abs_of_nonpos (by linarith : Real.sqrt r - n ≤ 0)] at h3
    have h4 : Real.sqrt r - s ≤ |Real.sqrt r - s| := le_abs_self _
    have gapR : (s : ℝ) ≤ n - (2 : ℝ) ^ ((k : ℤ) - 52) := by
      have : ((s : ℚ) : ℝ) ≤ ((n - (2 : ℚ) ^ ((k : ℤ) - 52) : ℚ) : ℝ) := by exact_mod_cast gap
      push_cast at this
      exact this
    have hu : (2 : ℝ) ^ ((k : ℤ) - 52) = (2 : ℝ) ^ (k + 1) / 2 ^ 53 := by
      rw [zpow_sub₀ (by norm_num), zpow_natCast, pow_succ]
      norm_num
      ring
    have hn1 : (n : ℝ) ≤ 2 ^ (k + 1) - 1 := by
      have : n + 1 ≤ 2 ^ (k + 1) := hk2
      have : ((n : ℝ) + 1) ≤ 2 ^ (k + 1) := by exact_mod_cast this
      linarith
    have hn40 : (n : ℝ) < 2 ^ 40 := by exact_mod_cast hn
    rw [hu] at gapR
    have h5 : (2 : ℝ) ^ (k + 1) / 2 ^ 53 ≤ n * (1 / 2 ^ 53 + 1 / 2 ^ 106) := by
      have : (n : ℝ) * (1 - 1 / 2 ^ 54 - 1 / 2 ^ 107) = n - n * (1 / 2 ^ 53 + 1 / 2 ^ 106) / 2 := by ring
      linarith
    have h6 : (2 : ℝ) ^ (k + 1) / 2 ^ 53 = 2 ^ (k + 1) * (1 / 2 ^ 53) := by ring
    rw [h6] at h5
    have h7 : (n : ℝ) * (1 / 2 ^ 106) < 1 / 2 ^ 53 := by
      have : (n : ℝ) * (1 / 2 ^ 106) < 2 ^ 40 * (1 / 2 ^ 106) := by
        apply mul_lt_mul_of_pos_right hn40
        norm_num
      have : (2 : ℝ) ^ 40 * (1 / 2 ^ 106) < 1 / 2 ^ 53 := by norm_num
      linarith
    have h8 : ((2 : ℝ) ^ (k + 1) - n) * (1 / 2 ^ 53) ≤ n * (1 / 2 ^ 106) := by linarith
    have h9 : (1 : ℝ) * (1 / 2 ^ 53) ≤ ((2 : ℝ) ^ (k + 1) - n) * (1 / 2 ^ 53) := by
      apply mul_le_mul_of_nonneg_right
      · linarith
      · norm_num
    linarith

theorem dot_sq : ∀ x y : List ℤ, (dot x y) ^ 2 ≤ dot x x * dot y y ∧ 0 ≤ dot x x := by
  have nn : ∀ x : List ℤ, 0 ≤ dot x x := by
    intro x
    induction x with
    | nil => simp [dot]
    | cons a x ih =>
      unfold dot at ih ⊢
      simp only [List.zip_cons_cons, List.map_cons, List.sum_cons]
      nlinarith [mul_self_nonneg a]
  intro x
  refine fun y => ⟨?_, nn x⟩
  -- a quadratic polynomial that is nowhere negative
  have key : ∀ (x y : List ℤ) (a b : ℤ), 2 * a * b * dot x y ≤ a ^ 2 * dot x x + b ^ 2 * dot y y := by
    intro x
    induction x with
    | nil =>
      intro y a b
      have : 0 ≤ b ^ 2 * dot y y := mul_nonneg (sq_nonneg b) (nn y)
      simpa [dot] using this
    | cons u x ih =>
      intro y a b
      cases y with
      | nil =>
        have : 0 ≤ a ^ 2 * dot (u :: x) (u :: x) := mul_nonneg (sq_nonneg a) (nn _)
        simpa [dot] using this
      | cons v y =>
        have := ih y a b
        have e : ∀ (p q : ℤ) (l m : List ℤ), dot (p :: l) (q :: m) = p * q + dot l m := by
          intro p q l m; simp [dot]
        rw [e, e, e]
        nlinarith [sq_nonneg (a * u - b * v)]
  have hx := nn x
  have hy := nn y
  rcases eq_or_lt_of_le hy with h | h
  · have h1 := key x y (dot x y) (dot x x + 1)
    rw [← h] at h1 ⊢
    nlinarith [sq_nonneg (dot x y)]
  · have h1 := key x y (dot y y) (dot x y)
    nlinarith

theorem dot_bound (m : ℤ) : ∀ x y : List ℤ, (∀ v ∈ x, |v| ≤ m) → (∀ v ∈ y, |v| ≤ m) →
    |dot x y| ≤ x.length * m ^ 2 := by
  intro x
  induction x with
  | nil => intro y _ _; simp [dot]
  | cons a x ih =>
    intro y hx hy
    cases y with
    | nil => simp [dot]; positivity
    | cons b y =>
      have := ih y (fun v hv => hx v (by simp [hv])) (fun v hv => hy v (by simp [hv]))
      have e : dot (a :: x) (b :: y) = a * b + dot x y := by simp [dot]
      rw [e]
      have h1 := hx a (by simp)
      have h2 := hy b (by simp)
      have h3 : |a * b| ≤ m ^ 2 := by
        rw [abs_mul, sq]
        exact mul_le_mul h1 h2 (abs_nonneg _) (le_trans (abs_nonneg _) h1)
      have h4 := abs_add_le (a * b) (dot x y)
      push_cast [List.length_cons]
      linarith

/-- C195: for any two spectra of six 16 bit values that are not zero, the quotient whose arc cosine is
taken lies between minus one and one, although the product, the square root and the quotient are
rounded. The angle therefore always is a number. -/
theorem c195_cosine (x y : List ℤ) (hx : x.length = 6) (hxv : ∀ v ∈ x, -32768 ≤ v ∧ v ≤ 32767)
    (hyv : ∀ v ∈ y, -32768 ≤ v ∧ v ≤ 32767) (h1 : 0 < dot x x) (h2 : 0 < dot y y)
    (r s q : ℚ) (hr : Nearest 53 ((dot x x : ℚ) * dot y y) r) (hs : NearestR (Real.sqrt r) s)
    (hq : Nearest 53 ((dot x y : ℚ) / s) q) : -1 ≤ q ∧ q ≤ 1 := by
  have hb : |dot x y| < 2 ^ 40 := by
    have := dot_bound 32768 x y (fun v hv => abs_le.2 ⟨by have := hxv v hv; omega, by have := hxv v hv; omega⟩)
      (fun v hv => abs_le.2 ⟨by have := hyv v hv; omega, by have := hyv v hv; omega⟩)
    rw [hx] at this
    have : (6 : ℤ) * 32768 ^ 2 < 2 ^ 40 := by norm_num
    push_cast at *
    linarith
  have hs0 : ((dot x y).natAbs : ℚ) ≤ s := by
    rcases Nat.eq_zero_or_pos (dot x y).natAbs with h | h
    · rw [h]
      push_cast
      by_contra hc
      rw [not_le] at hc
      have := hs.2 0 ⟨0, 0, by norm_num, by simp⟩
      have h3 : (s : ℝ) < 0 := by exact_mod_cast hc
      have h4 := Real.sqrt_nonneg (r : ℝ)
      push_cast at this
      rw [abs_of_nonneg (by linarith), abs_of_nonneg (by linarith)] at this
      linarith
    · apply sqrt_ge h _ _ hr hs
      · have : (((dot x y).natAbs : ℕ) : ℤ) < 2 ^ 40 := by rw [Int.natCast_natAbs]; exact hb
        exact_mod_cast this
      · have := (dot_sq x y).1
        have e : (((dot x y).natAbs : ℕ) : ℚ) ^ 2 = ((dot x y : ℤ) : ℚ) ^ 2 := by
          rw [← Int.cast_natCast, Int.natCast_natAbs, Int.cast_abs, sq_abs]
        rw [e]
        exact_mod_cast this
  have habs : |(dot x y : ℚ)| ≤ s := by
    have : (((dot x y).natAbs : ℕ) : ℚ) = |(dot x y : ℚ)| := by
      rw [← Int.cast_abs, ← Int.natCast_natAbs]
      simp
    rw [← this]
    exact hs0
  have hle : |(dot x y : ℚ) / s| ≤ 1 := by
    rw [abs_div]
    have h3 : 0 ≤ s := le_trans (abs_nonneg _) habs
    rw [abs_of_nonneg h3]
    exact div_le_one_of_le₀ habs h3
  obtain ⟨a1, a2⟩ := abs_le.1 hle
  constructor
  · by_contra hc
    rw [not_le] at hc
    have := hq.2 (-1) ⟨-1, 0, by norm_num, by simp⟩
    rw [abs_of_nonneg (by linarith), abs_of_nonneg (by linarith)] at this
    linarith
  · by_contra hc
    rw [not_le] at hc
    have := hq.2 1 ⟨1, 0, by norm_num, by simp⟩
    rw [abs_of_nonpos (by linarith), abs_of_nonpos (by linarith)] at this
    linarith

end Verif.Homo
