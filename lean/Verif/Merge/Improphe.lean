import Mathlib.Algebra.BigOperators.Group.List.Basic
import Mathlib.Algebra.Order.BigOperators.Group.List
import Mathlib.Tactic.Linarith
import Mathlib.Tactic.FieldSimp
import Mathlib.Tactic.Positivity
import Verif.FloatErr
import Verif.Merge.Regression

/-!
# C191: resolution merge with ImproPhe
-/

namespace Verif.Merge

open Spec Verif.Float

/-- A pixel of the image that is neither off nor cloudy, at most two pixels away. -/
def Spec.Around (m : Img) (i j i' j' : Nat) : Prop :=
  Valid m i' j' ∧ m.cloudy (pix m i' j') = false ∧ ((i' : ℤ) - i) ^ 2 + ((j' : ℤ) - j) ^ 2 ≤ 4

theorem mem_circle {m : Img} {i j np : Nat} : np ∈ circle m i j ↔ ∃ i' j', Around m i j i' j' ∧ np = pix m i' j' := by
  unfold circle
  simp only [List.mem_flatMap, List.mem_range, List.mem_filterMap]
  constructor
  · rintro ⟨ii, hi, jj, hj, h⟩
    split at h
    · cases h
    · rename_i hn
      rw [not_or, not_or, not_or] at hn
      split at h
      · cases h
      · rename_i hd
        split at h
        · cases h
        · rename_i hs
          have e1 : ((i + ii - 2 : ℕ) : ℤ) - i = (ii : ℤ) - 2 := by omega
          have e2 : ((j + jj - 2 : ℕ) : ℤ) - j = (jj : ℤ) - 2 := by omega
          have hs' : m.off (pix m (i + ii - 2) (j + jj - 2)) = false ∧
              m.cloudy (pix m (i + ii - 2) (j + jj - 2)) = false := by
            simpa [skip, pix] using hs
          refine ⟨i + ii - 2, j + jj - 2, ⟨⟨by omega, by omega, hs'.1⟩, hs'.2, ?_⟩, (Option.some.inj h).symm⟩
          rw [e1, e2]
          omega
  · rintro ⟨i', j', ⟨⟨h1, h2, h3⟩, h4, h5⟩, rfl⟩
    have b1 : -2 ≤ (i' : ℤ) - i ∧ (i' : ℤ) - i ≤ 2 := by
      constructor <;> nlinarith [sq_nonneg ((j' : ℤ) - j)]
    have b2 : -2 ≤ (j' : ℤ) - j ∧ (j' : ℤ) - j ≤ 2 := by
      constructor <;> nlinarith [sq_nonneg ((i' : ℤ) - i)]
    refine ⟨i' + 2 - i, by omega, j' + 2 - j, by omega, ?_⟩
    have e1 : i + (i' + 2 - i) - 2 = i' := by omega
    have e2 : j + (j' + 2 - j) - 2 = j' := by omega
    have e3 : ((i' + 2 - i : ℕ) : ℤ) - 2 = (i' : ℤ) - i := by omega
    have e4 : ((j' + 2 - j : ℕ) : ℤ) - 2 = (j' : ℤ) - j := by omega
    rw [if_neg (by omega), e1, e2, e3, e4, if_neg (by omega), if_neg]
    · rfl
    · unfold pix at h3 h4
      simp [skip, h3, h4]

theorem rescale_one_le (w lo hi : ℝ) : 1 ≤ rescale w lo hi := by
  unfold rescale
  split
  · exact le_rfl
  · split
    · exact le_rfl
    · linarith [Real.exp_pos (25 * ((w - lo) / (hi - lo)) - 7.5)]

theorem truncR_between {x : ℝ} {lo hi : ℤ} (h1 : (lo : ℝ) ≤ x) (h2 : x ≤ hi) : lo ≤ truncR x ∧ truncR x ≤ hi := by
  unfold truncR
  split
  · rename_i h
    refine ⟨Int.le_floor.2 h1, ?_⟩
    have : (⌊x⌋ : ℝ) ≤ hi := le_trans (Int.floor_le x) h2
    exact_mod_cast this
  · refine ⟨?_, Int.ceil_le.2 h2⟩
    have : (lo : ℝ) ≤ ⌈x⌉ := le_trans h1 (Int.le_ceil x)
    exact_mod_cast this

/-- Weighted means. -/
theorem wmean {α : Type} (u : List α) (w v : α → ℝ) (lo hi : ℝ) (hu : u ≠ []) (hw : ∀ x ∈ u, 0 < w x)
    (hv : ∀ x ∈ u, lo ≤ v x ∧ v x ≤ hi) :
    0 < (u.map w).sum ∧ lo * (u.map w).sum ≤ (u.map fun x => w x * v x).sum ∧
      (u.map fun x => w x * v x).sum ≤ hi * (u.map w).sum := by
  have key : ∀ u : List α, (∀ x ∈ u, 0 < w x) → (∀ x ∈ u, lo ≤ v x ∧ v x ≤ hi) → 0 ≤ (u.map w).sum ∧
      lo * (u.map w).sum ≤ (u.map fun x => w x * v x).sum ∧
      (u.map fun x => w x * v x).sum ≤ hi * (u.map w).sum := by
    intro u
    induction u with
    | nil => intro _ _; simp
    | cons a u ih =>
      intro hw hv
      obtain ⟨i0, i1, i2⟩ := ih (fun x hx => hw x (by simp [hx])) (fun x hx => hv x (by simp [hx]))
      have wa := hw a (by simp)
      obtain ⟨va, vb⟩ := hv a (by simp)
      simp only [List.map_cons, List.sum_cons]
      refine ⟨by linarith, ?_, ?_⟩ <;> nlinarith
  obtain ⟨-, k1, k2⟩ := key u hw hv
  refine ⟨?_, k1, k2⟩
  obtain ⟨a, u', rfl⟩ := List.exists_cons_of_ne_nil hu
  have k0 := (key u' (fun x hx => hw x (by simp [hx])) (fun x hx => hv x (by simp [hx]))).1
  rw [List.map_cons, List.sum_cons]
  linarith [hw a (by simp)]

theorem sclass_zero : sclass 0 = some 0 := by
  unfold sclass thresholds
  rw [List.findIdx?_cons, if_pos]
  norm_num

theorem similarity_self (m : Img) (p : Nat) : similarity m p p = 0 := by simp [similarity]

theorem self_neighbour (m : Img) (y : Nat → ℤ) (i j : Nat) (h : Valid m i j) (hc : m.cloudy (pix m i j) = false) :
    (⟨0, 0, y (pix m i j)⟩ : Neighbour) ∈ neighbours m y i j := by
  unfold neighbours
  rw [List.mem_filterMap]
  refine ⟨pix m i j, mem_circle.2 ⟨i, j, ⟨h, hc, by simp⟩, rfl⟩, ?_⟩
  have : similarity m (i * m.nx + j) (pix m i j) = 0 := similarity_self m _
  rw [this, sclass_zero]
  rfl

theorem neighbour_value {m : Img} {y : Nat → ℤ} {i j : Nat} {x : Neighbour} (h : x ∈ neighbours m y i j) :
    ∃ i' j', Around m i j i' j' ∧ x.v = y (pix m i' j') := by
  unfold neighbours at h
  rw [List.mem_filterMap] at h
  obtain ⟨np, hnp, h⟩ := h
  obtain ⟨i', j', ha, rfl⟩ := mem_circle.1 hnp
  rw [Option.map_eq_some_iff] at h
  obtain ⟨c, -, rfl⟩ := h
  exact ⟨i', j', ha, rfl⟩

/-- C191, partial: in exact arithmetic, the result lies between the smallest and the largest value
of the band at the valid pixels at most two pixels away; where they are equal, nothing changes.
Missing: the rounding of the computation (below). -/
theorem c191_range_partial (m : Img) (y : Nat → ℤ) (i j : Nat) (lo hi : ℤ) (hv : Valid m i j)
    (h : ∀ i' j', Around m i j i' j' → lo ≤ y (pix m i' j') ∧ y (pix m i' j') ≤ hi) :
    (m.cloudy (pix m i j) = false → lo ≤ improphePixel m y i j ∧ improphePixel m y i j ≤ hi) ∧
    (m.cloudy (pix m i j) = true → improphePixel m y i j = y (pix m i j)) := by
  constructor
  · intro hc
    have hs := self_neighbour m y i j hv hc
    unfold improphePixel
    rw [if_neg]
    swap
    · have := hv.2.2
      unfold pix at this hc
      simp [skip, this, hc]
    unfold improphe
    simp only
    rw [if_neg (List.ne_nil_of_mem hs)]
    set l := neighbours m y i j with hl
    set u := l.filter fun n => decide (n.c ≤ cutoff l) with hu
    have hune : u ≠ [] := List.ne_nil_of_mem (List.mem_filter.2 ⟨hs, by simp⟩)
    obtain ⟨p, q, r⟩ := wmean u (fun n : Neighbour => 1 / rescale n.s (srange l (cutoff l)).1 (srange l (cutoff l)).2)
      (fun n => (n.v : ℝ) / 10000) ((lo : ℝ) / 10000) ((hi : ℝ) / 10000) hune
      (fun x _ => by
        have := rescale_one_le x.s (srange l (cutoff l)).1 (srange l (cutoff l)).2
        positivity)
      (fun x hx => by
        obtain ⟨i', j', ha, e⟩ := neighbour_value (List.mem_filter.1 hx).1
        obtain ⟨a, b⟩ := h i' j' ha
        rw [← e] at a b
        have a' : (lo : ℝ) ≤ x.v := by exact_mod_cast a
        have b' : (x.v : ℝ) ≤ hi := by exact_mod_cast b
        constructor <;> linarith)
    apply truncR_between
    · rw [div_mul_eq_mul_div, le_div_iff₀ p]
      linarith
    · rw [div_mul_eq_mul_div, div_le_iff₀ p]
      linarith
  · intro hc
    unfold improphePixel
    rw [if_pos]
    · rfl
    · unfold pix at hc
      simp [skip, hc]

/-- C191: the result depends only on the band at the valid pixels at most two pixels away: pixels
that are off or cloudy have no influence. -/
theorem c191_neighbours (m : Img) (y y' : Nat → ℤ) (i j : Nat) (hv : Valid m i j)
    (hc : m.cloudy (pix m i j) = false)
    (h : ∀ i' j', Around m i j i' j' → y (pix m i' j') = y' (pix m i' j')) :
    improphePixel m y i j = improphePixel m y' i j := by
  have e : neighbours m y i j = neighbours m y' i j := by
    unfold neighbours
    apply List.filterMap_congr
    intro np hnp
    obtain ⟨i', j', ha, rfl⟩ := mem_circle.1 hnp
    rw [h i' j' ha]
  have e0 : y (i * m.nx + j) = y' (i * m.nx + j) := h i j ⟨hv, hc, by simp⟩
  unfold improphePixel improphe
  rw [e, e0]

/-- C191: a neighbour that is spectrally closer has at least the weight of one that is farther. -/
theorem c191_weight (lo hi w w' : ℝ) (h0 : 0 ≤ w) (hw : w ≤ w') (hl : lo ≤ hi) :
    1 / rescale w' lo hi ≤ 1 / rescale w lo hi := by
  have h1 := rescale_one_le w lo hi
  have h2 := rescale_one_le w' lo hi
  apply one_div_le_one_div_of_le (by linarith)
  unfold rescale
  split
  · split
    · exact le_rfl
    · split
      · exact le_rfl
      · linarith [Real.exp_pos (25 * ((w' - lo) / (hi - lo)) - 7.5)]
  · rename_i hz
    have hp : 0 < w := lt_of_le_of_ne h0 (Ne.symm hz)
    have hz' : w' ≠ 0 := (lt_of_lt_of_le hp hw).ne'
    rw [if_neg hz']
    by_cases hne : lo = hi
    · rw [if_pos hne, if_pos hne]
    · rw [if_neg hne, if_neg hne]
      have hlt : 0 < hi - lo := sub_pos.2 (lt_of_le_of_ne hl hne)
      have : 25 * ((w - lo) / (hi - lo)) - 7.5 ≤ 25 * ((w' - lo) / (hi - lo)) - 7.5 := by
        have := div_le_div_of_nonneg_right (sub_le_sub_right hw lo) hlt.le
        linarith
      linarith [Real.exp_le_exp.2 this]

/-- A binary fraction. -/
def D (k e : ℤ) : ℚ := k * (2 : ℚ) ^ e

theorem rnD {rn : ℚ → ℚ} (h : ∀ x, Nearest 53 x (rn x)) (x : ℚ) (k e : ℤ) (hk : |k| ≤ 2 ^ 53)
    (hx : (2 : ℚ) ^ (e + (53 : ℕ) - 1) ≤ x) (hd : |x - k * (2 : ℚ) ^ e| < (2 : ℚ) ^ e / 2) : rn x = D k e :=
  nearest_unique_of_ge (by norm_num) (h x) k e hk hx hd

/-- C191, violated: the result is truncated after a computation in `double`, so that a
homogeneous band does not stay homogeneous. A kernel of 13 pixels that all have the value 7 gives
6, and a single valid pixel of value 3 gives 2 (with any rounding to nearest). -/
theorem c191_rounding_violated (rn : ℚ → ℚ) (h : ∀ x, Nearest 53 x (rn x)) :
    impropheRounded rn (List.replicate 13 7) = 6 ∧ impropheRounded rn [3] = 2 := by
  have r1 : rn (1 / 1) = (D 4503599627370496 (-52)) := rnD h _ _ _ (by norm_num) (by norm_num [D]) (by norm_num [D])
  have rx : rn (((7 : ℤ) : ℚ) / 10000) = (D 6456360425798343 (-63)) := rnD h _ _ _ (by norm_num) (by norm_num [D]) (by norm_num [D])
  have r1x : rn ((D 4503599627370496 (-52)) * (D 6456360425798343 (-63))) = (D 6456360425798343 (-63)) := rnD h _ _ _ (by norm_num) (by norm_num [D]) (by norm_num [D])
  have s0 : rn (0 + (D 6456360425798343 (-63))) = (D 6456360425798343 (-63)) := rnD h _ _ _ (by norm_num) (by norm_num [D]) (by norm_num [D])
  have c0 : rn (0 + (D 4503599627370496 (-52))) = (D 4503599627370496 (-52)) := rnD h _ _ _ (by norm_num) (by norm_num [D]) (by norm_num [D])
  have s1 : rn ((D 6456360425798343 (-63)) + (D 6456360425798343 (-63))) = (D 6456360425798343 (-62)) := rnD h _ _ _ (by norm_num) (by norm_num [D]) (by norm_num [D])
  have c1 : rn ((D 4503599627370496 (-52)) + (D 4503599627370496 (-52))) = (D 4503599627370496 (-51)) := rnD h _ _ _ (by norm_num) (by norm_num [D]) (by norm_num [D])
  have s2 : rn ((D 6456360425798343 (-62)) + (D 6456360425798343 (-63))) = (D 4842270319348757 (-61)) := rnD h _ _ _ (by norm_num) (by norm_num [D]) (by norm_num [D])
  have c2 : rn ((D 4503599627370496 (-51)) + (D 4503599627370496 (-52))) = (D 6755399441055744 (-51)) := rnD h _ _ _ (by norm_num) (by norm_num [D]) (by norm_num [D])
  have s3 : rn ((D 4842270319348757 (-61)) + (D 6456360425798343 (-63))) = (D 6456360425798343 (-61)) := rnD h _ _ _ (by norm_num) (by norm_num [D]) (by norm_num [D])
  have c3 : rn ((D 6755399441055744 (-51)) + (D 4503599627370496 (-52))) = (D 4503599627370496 (-50)) := rnD h _ _ _ (by norm_num) (by norm_num [D]) (by norm_num [D])
  have s4 : rn ((D 6456360425798343 (-61)) + (D 6456360425798343 (-63))) = (D 8070450532247929 (-61)) := rnD h _ _ _ (by norm_num) (by norm_num [D]) (by norm_num [D])
  have c4 : rn ((D 4503599627370496 (-50)) + (D 4503599627370496 (-52))) = (D 5629499534213120 (-50)) := rnD h _ _ _ (by norm_num) (by norm_num [D]) (by norm_num [D])
  have s5 : rn ((D 8070450532247929 (-61)) + (D 6456360425798343 (-63))) = (D 4842270319348757 (-60)) := rnD h _ _ _ (by norm_num) (by norm_num [D]) (by norm_num [D])
  have c5 : rn ((D 5629499534213120 (-50)) + (D 4503599627370496 (-52))) = (D 6755399441055744 (-50)) := rnD h _ _ _ (by norm_num) (by norm_num [D]) (by norm_num [D])
  have s6 : rn ((D 4842270319348757 (-60)) + (D 6456360425798343 (-63))) = (D 5649315372573550 (-60)) := rnD h _ _ _ (by norm_num) (by norm_num [D]) (by norm_num [D])
  have c6 : rn ((D 6755399441055744 (-50)) + (D 4503599627370496 (-52))) = (D 7881299347898368 (-50)) := rnD h _ _ _ (by norm_num) (by norm_num [D]) (by norm_num [D])
  have s7 : rn ((D 5649315372573550 (-60)) + (D 6456360425798343 (-63))) = (D 6456360425798343 (-60)) := rnD h _ _ _ (by norm_num) (by norm_num [D]) (by norm_num [D])
  have c7 : rn ((D 7881299347898368 (-50)) + (D 4503599627370496 (-52))) = (D 4503599627370496 (-49)) := rnD h _ _ _ (by norm_num) (by norm_num [D]) (by norm_num [D])
  have s8 : rn ((D 6456360425798343 (-60)) + (D 6456360425798343 (-63))) = (D 7263405479023136 (-60)) := rnD h _ _ _ (by norm_num) (by norm_num [D]) (by norm_num [D])
  have c8 : rn ((D 4503599627370496 (-49)) + (D 4503599627370496 (-52))) = (D 5066549580791808 (-49)) := rnD h _ _ _ (by norm_num) (by norm_num [D]) (by norm_num [D])
  have s9 : rn ((D 7263405479023136 (-60)) + (D 6456360425798343 (-63))) = (D 8070450532247929 (-60)) := rnD h _ _ _ (by norm_num) (by norm_num [D]) (by norm_num [D])
  have c9 : rn ((D 5066549580791808 (-49)) + (D 4503599627370496 (-52))) = (D 5629499534213120 (-49)) := rnD h _ _ _ (by norm_num) (by norm_num [D]) (by norm_num [D])
  have s10 : rn ((D 8070450532247929 (-60)) + (D 6456360425798343 (-63))) = (D 8877495585472722 (-60)) := rnD h _ _ _ (by norm_num) (by norm_num [D]) (by norm_num [D])
  have c10 : rn ((D 5629499534213120 (-49)) + (D 4503599627370496 (-52))) = (D 6192449487634432 (-49)) := rnD h _ _ _ (by norm_num) (by norm_num [D]) (by norm_num [D])
  have s11 : rn ((D 8877495585472722 (-60)) + (D 6456360425798343 (-63))) = (D 4842270319348757 (-59)) := rnD h _ _ _ (by norm_num) (by norm_num [D]) (by norm_num [D])
  have c11 : rn ((D 6192449487634432 (-49)) + (D 4503599627370496 (-52))) = (D 6755399441055744 (-49)) := rnD h _ _ _ (by norm_num) (by norm_num [D]) (by norm_num [D])
  have s12 : rn ((D 4842270319348757 (-59)) + (D 6456360425798343 (-63))) = (D 5245792845961153 (-59)) := rnD h _ _ _ (by norm_num) (by norm_num [D]) (by norm_num [D])
  have c12 : rn ((D 6755399441055744 (-49)) + (D 4503599627370496 (-52))) = (D 7318349394477056 (-49)) := rnD h _ _ _ (by norm_num) (by norm_num [D]) (by norm_num [D])
  have dv : rn ((D 5245792845961153 (-59)) / (D 7318349394477056 (-49))) = (D 6456360425798342 (-63)) := rnD h _ _ _ (by norm_num) (by norm_num [D]) (by norm_num [D])
  have ml : rn ((D 6456360425798342 (-63)) * 10000) = (D 7881299347898367 (-50)) := rnD h _ _ _ (by norm_num) (by norm_num [D]) (by norm_num [D])
  have ry : rn (((3 : ℤ) : ℚ) / 10000) = (D 5534023222112865 (-64)) := rnD h _ _ _ (by norm_num) (by norm_num [D]) (by norm_num [D])
  have r1y : rn ((D 4503599627370496 (-52)) * (D 5534023222112865 (-64))) = (D 5534023222112865 (-64)) := rnD h _ _ _ (by norm_num) (by norm_num [D]) (by norm_num [D])
  have t0 : rn (0 + (D 5534023222112865 (-64))) = (D 5534023222112865 (-64)) := rnD h _ _ _ (by norm_num) (by norm_num [D]) (by norm_num [D])
  have dy : rn ((D 5534023222112865 (-64)) / (D 4503599627370496 (-52))) = (D 5534023222112865 (-64)) := rnD h _ _ _ (by norm_num) (by norm_num [D]) (by norm_num [D])
  have my : rn ((D 5534023222112865 (-64)) * 10000) = (D 6755399441055743 (-51)) := rnD h _ _ _ (by norm_num) (by norm_num [D]) (by norm_num [D])
  constructor
  · have st : ∀ a b, accum rn (a, b) 7 = (rn (a + D 6456360425798343 (-63)), rn (b + D 4503599627370496 (-52))) := by
      intro a b
      unfold accum
      rw [r1, rx, r1x]
    have hf : (List.replicate 13 (7 : ℤ)).foldl (accum rn) (0, 0) = (D 5245792845961153 (-59), D 7318349394477056 (-49)) := by
      rw [show List.replicate 13 (7 : ℤ) = [7, 7, 7, 7, 7, 7, 7, 7, 7, 7, 7, 7, 7] from rfl]
      rw [List.foldl_cons, st, s0, c0, List.foldl_cons, st, s1, c1, List.foldl_cons, st, s2, c2, List.foldl_cons, st, s3, c3, List.foldl_cons, st, s4, c4, List.foldl_cons, st, s5, c5, List.foldl_cons, st, s6, c6, List.foldl_cons, st, s7, c7, List.foldl_cons, st, s8, c8, List.foldl_cons, st, s9, c9, List.foldl_cons, st, s10, c10, List.foldl_cons, st, s11, c11, List.foldl_cons, st, s12, c12, List.foldl_nil]
    unfold impropheRounded
    rw [hf, dv, ml]
    unfold truncQ D
    rw [if_pos (by norm_num), Int.floor_eq_iff]
    constructor <;> norm_num
  · have hf : ([3] : List ℤ).foldl (accum rn) (0, 0) = (D 5534023222112865 (-64), D 4503599627370496 (-52)) := by
      rw [List.foldl_cons, List.foldl_nil]
      unfold accum
      rw [r1, ry, r1y, t0, c0]
    unfold impropheRounded
    rw [hf, dy, my]
    unfold truncQ D
    rw [if_pos (by norm_num), Int.floor_eq_iff]
    constructor <;> norm_num

end Verif.Merge
