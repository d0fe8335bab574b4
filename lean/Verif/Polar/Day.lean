import Verif.FloatErr
import Verif.Polar.Model
import Verif.Date.Props

/-!
# Days of the year through radians

The day of each step goes through `float` radians and back. Every rounding of the chain is pinned down for all days.
-/

namespace Verif.Polar

open Verif.Float Verif.Date

/-- A rounded quotient is `k / 2^s` if that is less than half a unit away. -/
theorem nearest_nat {p n d k s : Nat} {x r : ℚ} (h : Nearest p x r) (hx : x = (n : ℚ) / d) (hp : 0 < p) (hd : 0 < d)
    (h1 : 2 * (n * 2 ^ s) < 2 * (k * d) + d) (h2 : 2 * (k * d) < 2 * (n * 2 ^ s) + d) (hk : k ≤ 2 ^ p)
    (h3 : 2 ^ p * d ≤ 2 * (n * 2 ^ s)) : r = (k : ℚ) / (2 ^ s : Nat) := by
  have hd' : (0 : ℚ) < d := by exact_mod_cast hd
  have hs' : (0 : ℚ) < 2 ^ s := by positivity
  have e1 : (2 : ℚ) ^ (-(s : ℤ)) = 1 / 2 ^ s := by rw [zpow_neg, zpow_natCast, one_div]
  have e2 : (2 : ℚ) ^ (-(s : ℤ) + p - 1) = 2 ^ p / 2 / 2 ^ s := by
    rw [zpow_sub₀ two_ne_zero, zpow_add₀ two_ne_zero, e1, zpow_natCast, zpow_one]; ring
  have q1 : (2 : ℚ) * (n * 2 ^ s) < 2 * (k * d) + d := by exact_mod_cast h1
  have q2 : (2 : ℚ) * (k * d) < 2 * (n * 2 ^ s) + d := by exact_mod_cast h2
  have q3 : (2 : ℚ) ^ p * d ≤ 2 * (n * 2 ^ s) := by exact_mod_cast h3
  have := nearest_unique_of_ge hp h k (-(s : ℤ)) (by rw [abs_of_nonneg (by positivity)]; exact_mod_cast hk)
    (by
      rw [e2, hx, div_div, div_le_div_iff₀ (by positivity) hd']
      linarith)
    (by
      rw [e1, hx, abs_lt]
      have : (n : ℚ) / d - (k : ℤ) * (1 / 2 ^ s) = (n * 2 ^ s - k * d) / (d * 2 ^ s) := by
        push_cast; field_simp
      rw [this, show (1 : ℚ) / 2 ^ s / 2 = 1 / (2 * 2 ^ s) by field_simp]
      constructor
      · rw [← neg_div, div_lt_div_iff₀ (by positivity) (by positivity)]
        nlinarith
      · rw [div_lt_div_iff₀ (by positivity) (by positivity)]
        nlinarith)
  rw [this, e1]; push_cast; ring

/-- Candidate for `n / d` rounded to `p` digits: `k / 2^s`. -/
def cand (p n d : Nat) : Nat × Nat :=
  let s0 := p + d.log2 - n.log2
  let s := if n * 2 ^ s0 ≤ 2 ^ p * d then s0 else s0 - 1
  ((2 * (n * 2 ^ s) + d) / (2 * d), s)

/-- The candidate is the rounded number. -/
def good (p n d : Nat) : Bool :=
  let c := cand p n d
  decide (0 < d ∧ 2 * (n * 2 ^ c.2) < 2 * (c.1 * d) + d ∧ 2 * (c.1 * d) < 2 * (n * 2 ^ c.2) + d ∧ c.1 ≤ 2 ^ p ∧
    2 ^ p * d ≤ 2 * (n * 2 ^ c.2))

theorem good_spec {p n d : Nat} {x r : ℚ} (h : Nearest p x r) (hx : x = (n : ℚ) / d) (hp : 0 < p)
    (hg : good p n d = true) : r = ((cand p n d).1 : ℚ) / (2 ^ (cand p n d).2 : Nat) := by
  simp only [good, decide_eq_true_eq] at hg
  exact nearest_nat h hx hp hg.1 hg.2.1 hg.2.2.1 hg.2.2.2.1 hg.2.2.2.2

/-- The chain of roundings for a day: all candidates are right, and the day that results. -/
def chain (doy : Nat) : Bool × Nat :=
  let a := cand 53 doy 365
  let b := cand 53 (a.1 * 2) (2 ^ a.2)
  let c := cand 53 (b.1 * 884279719003555) (2 ^ b.2 * 281474976710656)
  let r := cand 24 c.1 (2 ^ c.2)
  let g := cand 53 (r.1 * 365) (2 ^ r.2)
  let q := cand 53 (g.1 * 281474976710656) (2 ^ g.2 * 1768559438007110)
  let z := cand 24 q.1 (2 ^ q.2)
  (good 53 doy 365 && good 53 (a.1 * 2) (2 ^ a.2) && good 53 (b.1 * 884279719003555) (2 ^ b.2 * 281474976710656) &&
    good 24 c.1 (2 ^ c.2) && good 53 (r.1 * 365) (2 ^ r.2) &&
    good 53 (g.1 * 281474976710656) (2 ^ g.2 * 1768559438007110) && good 24 q.1 (2 ^ q.2), z.1 / 2 ^ z.2)

/-- The days that lose a day. -/
def lostDays : List Int := [63, 121, 126, 237, 242, 247, 252]

theorem chain_all : ∀ doy ∈ List.range 367, doy = 0 ∨
    chain doy = (true, if (doy : Int) ∈ lostDays then doy - 1 else doy) := by
  decide +kernel

theorem truncQ_div (a b : Nat) (hb : 0 < b) : truncQ ((a : ℚ) / b) = (a / b : Nat) := by
  have h0 : 0 ≤ (a : ℚ) / b := by positivity
  unfold truncQ
  rw [Int.tdiv_eq_ediv_of_nonneg (Rat.num_nonneg.2 h0), ← Rat.floor_def', Rat.floor_natCast_div_natCast,
    Int.natCast_ediv]

theorem div_twoPi (a b : Nat) : (a : ℚ) / b / (2 * mPi) =
    (a * 281474976710656 : Nat) / (b * 1768559438007110 : Nat) := by
  unfold mPi
  rw [div_div]
  rcases Nat.eq_zero_or_pos b with rfl | hb
  · simp
  · have hb : (b : ℚ) ≠ 0 := by positivity
    push_cast
    rw [div_eq_div_iff (by positivity) (by positivity)]
    ring

theorem chain_spec (f d : ℚ → ℚ) (hf : ∀ x, Nearest 24 x (f x)) (hd : ∀ x, Nearest 53 x (d x)) (doy : Nat)
    (hc : (chain doy).1 = true) : polarDay f d doy = (chain doy).2 := by
  unfold chain at hc ⊢
  simp only [Bool.and_eq_true] at hc
  obtain ⟨⟨⟨⟨⟨⟨h1, h2⟩, h3⟩, h4⟩, h5⟩, h6⟩, h7⟩ := hc
  have p53 : 0 < 53 := by norm_num
  have p24 : 0 < 24 := by norm_num
  unfold polarDay radToDay dayToRad
  have e1 := good_spec (hd ((doy : ℚ) / 365)) (by norm_num) p53 h1
  have e2 := good_spec (hd (d ((doy : ℚ) / 365) * 2)) (by rw [e1]; push_cast; ring) p53 h2
  have e3 := good_spec (hd (d (d ((doy : ℚ) / 365) * 2) * mPi))
    (by rw [e2]; unfold mPi; push_cast; field_simp) p53 h3
  have e4 := good_spec (hf (d (d (d ((doy : ℚ) / 365) * 2) * mPi))) (by rw [e3]) p24 h4
  have e5 := good_spec (hd (f (d (d (d ((doy : ℚ) / 365) * 2) * mPi)) * 365)) (by rw [e4]; push_cast; ring) p53 h5
  have e0 : d (2 * mPi) = 2 * mPi := by
    have h := good_spec (n := 1768559438007110) (d := 281474976710656) (hd (2 * mPi)) (by unfold mPi; norm_num) p53
      (by decide +kernel)
    rw [h, show cand 53 1768559438007110 281474976710656 = (7074237752028440, 50) by decide +kernel]
    unfold mPi; norm_num
  have e6 := good_spec (hd (d (f (d (d (d ((doy : ℚ) / 365) * 2) * mPi)) * 365) / d (2 * mPi)))
    (by rw [e5, e0, div_twoPi]) p53 h6
  have e7 := good_spec (hf (d (d (f (d (d (d ((doy : ℚ) / 365) * 2) * mPi)) * 365) / d (2 * mPi)))) (by rw [e6]) p24 h7
  rw [Int.cast_natCast, e7, truncQ_div _ _ (by positivity)]

/-- The day of the year that a step gets. -/
theorem polarDay_eq (f d : ℚ → ℚ) (hf : ∀ x, Nearest 24 x (f x)) (hd : ∀ x, Nearest 53 x (d x)) (doy : Int)
    (h1 : 1 ≤ doy) (h2 : doy ≤ 366) : polarDay f d doy = if doy ∈ lostDays then doy - 1 else doy := by
  obtain ⟨n, rfl⟩ := Int.eq_ofNat_of_zero_le (by omega : 0 ≤ doy)
  have h := chain_all n (List.mem_range.2 (by omega))
  rcases h with h | h
  · omega
  · rw [chain_spec f d hf hd n (by rw [h]), h]
    simp only
    split
    · omega
    · rfl

end Verif.Polar
