import Verif.Prod.Coarse
import Verif.Prod.CoarseSpec
import Mathlib.Tactic.FieldSimp

/-!
# C149: interpolation of the coarse atmospheric parameters
-/

namespace Verif.Prod

open Verif.Str (Out)
open Verif.Prod.Spec

/-- The neighbours, if the position is in the outer half of the first or the last cell. -/
theorem near_edge {n : Nat} {x : ℚ} (h0 : 0 ≤ x) (h1 : x < n) (he : x < 1 / 2 ∨ (n : ℚ) - 1 / 2 ≤ x) :
    ∃ k : Nat, k < n ∧ near n x = ((k : Int), (k : Int)) ∧ max 0 (min ((n : ℚ) - 1) (x - 1 / 2)) = k ∧ Close x k := by
  have f1 : ((⌊x⌋ : Int) : ℚ) ≤ x := Int.floor_le x
  have f2 : x < (⌊x⌋ : Int) + 1 := Int.lt_floor_add_one x
  have f0 : 0 ≤ ⌊x⌋ := Int.floor_nonneg.2 h0
  have fn : ⌊x⌋ < n := Int.floor_lt.2 (by exact_mod_cast h1)
  unfold near
  generalize ⌊x⌋ = g at *
  obtain ⟨f, rfl⟩ := Int.eq_ofNat_of_zero_le f0
  simp only [Int.cast_natCast] at *
  have hfn : f < n := by exact_mod_cast fn
  have hfn' : (f : ℚ) + 1 ≤ n := by exact_mod_cast hfn
  refine ⟨f, hfn, ?_, ?_, ?_⟩
  · rcases he with he | he
    · have : (f : ℚ) < 1 := by linarith
      have hf0 : f = 0 := by
        have : f < 1 := by exact_mod_cast this
        omega
      subst hf0
      have h3 : x - ((0 : Nat) : ℚ) < 1 / 2 := by push_cast; linarith
      rw [if_pos h3, if_pos h3, if_pos (by norm_num), if_neg (by push_cast; omega)]
    · have hl : (n : ℚ) < f + 2 := by linarith
      have hl' : f + 1 = n := by
        have : n < f + 2 := by exact_mod_cast hl
        omega
      have hn : (n : ℚ) = f + 1 := by rw [← hl']; push_cast; ring
      have h3 : ¬ (x - (f : ℚ) < 1 / 2) := by rw [hn] at he; linarith
      rw [if_neg h3, if_neg h3, if_neg (by omega), if_pos (by omega)]
  · rcases he with he | he
    · have : (f : ℚ) < 1 := by linarith
      have hf0 : f = 0 := by
        have : f < 1 := by exact_mod_cast this
        omega
      subst hf0
      apply max_eq_left
      apply le_trans (min_le_right _ _)
      linarith
    · have hl : (n : ℚ) < f + 2 := by linarith
      have hl' : f + 1 = n := by
        have : n < f + 2 := by exact_mod_cast hl
        omega
      have hn : (n : ℚ) = f + 1 := by rw [← hl']; push_cast; ring
      rw [hn] at he ⊢
      have hf0 : (0 : ℚ) ≤ f := by positivity
      rw [min_eq_left (by linarith), add_sub_cancel_right, max_eq_right hf0]
  · unfold Close
    rw [abs_le]
    constructor <;> linarith

/-- The neighbours, if the position is not there. -/
theorem near_inner {n : Nat} {x : ℚ} (h0 : 1 / 2 ≤ x) (h1 : x < (n : ℚ) - 1 / 2) :
    ∃ k : Nat, k + 1 < n ∧ near n x = ((k : Int), (k : Int) + 1) ∧ (k : ℚ) ≤ x - 1 / 2 ∧ x - 1 / 2 < k + 1 ∧ Close x k ∧ Close x (k + 1) := by
  have f1 : ((⌊x⌋ : Int) : ℚ) ≤ x := Int.floor_le x
  have f2 : x < (⌊x⌋ : Int) + 1 := Int.lt_floor_add_one x
  have f0 : 0 ≤ ⌊x⌋ := Int.floor_nonneg.2 (by linarith)
  unfold near
  generalize ⌊x⌋ = g at *
  obtain ⟨f, rfl⟩ := Int.eq_ofNat_of_zero_le f0
  simp only [Int.cast_natCast] at *
  by_cases h3 : x - (f : ℚ) < 1 / 2
  · have hf1 : 1 ≤ f := by
      by_contra hc
      have : f = 0 := by omega
      subst this
      push_cast at h3
      linarith
    obtain ⟨k, rfl⟩ : ∃ k, f = k + 1 := ⟨f - 1, by omega⟩
    push_cast at *
    have hlt : k + 1 < n := by
      have : ((k : ℚ) + 1) < n := by linarith
      exact_mod_cast this
    refine ⟨k, hlt, ?_, by linarith, by linarith, ?_, ?_⟩
    · rw [if_pos h3, if_pos h3, if_neg (by omega), if_neg (by omega)]
      simp
    · unfold Close; rw [abs_le]; constructor <;> linarith
    · unfold Close; push_cast; rw [abs_le]; constructor <;> linarith
  · have hlt : f + 1 < n := by
      have : ((f : ℚ) + 1) < n := by linarith
      exact_mod_cast this
    refine ⟨f, hlt, ?_, by linarith, by linarith, ?_, ?_⟩
    · rw [if_neg h3, if_neg h3, if_neg (by omega), if_neg (by omega)]
    · unfold Close; rw [abs_le]; constructor <;> linarith
    · unfold Close; push_cast; rw [abs_le]; constructor <;> linarith

/-- Row `r`, column `k` of a grid with `nf` columns. -/
def cell (nf : Nat) (c : List ℚ) (r k : Nat) : ℚ := c.getD (r * nf + k) 0

theorem cellAt_ok {nf ne : Nat} {c : List ℚ} (hc : c.length = ne * nf) {r k : Nat} (hr : r < ne) (hk : k < nf) :
    cellAt c ((r : Int) * nf + k) = .ok (cell nf c r k) := by
  have hb : r * nf + k < c.length := by
    rw [hc]
    have : (r + 1) * nf ≤ ne * nf := Nat.mul_le_mul_right _ hr
    nlinarith
  have he : ((r : Int) * nf + k).toNat = r * nf + k := by
    have : ((r : Int) * nf + k) = ((r * nf + k : Nat) : Int) := by push_cast; ring
    rw [this, Int.toNat_natCast]
  unfold cellAt cell
  rw [if_neg (not_lt.2 (by positivity)), he, List.getElem?_eq_getElem hb, List.getD_eq_getElem?_getD, List.getElem?_eq_getElem hb]
  rfl

/-- All accesses are inside of the grids; the value as a sum. -/
theorem smoothed_eq {fl : ℚ → ℚ} {nf ne : Nat} {vz c : List ℚ} (hvz : vz.length = ne * nf) (hc : c.length = ne * nf)
    {nodata y x : ℚ} {l l' k k' : Nat} (hy : near ne y = ((l : Int), (l' : Int))) (hx : near nf x = ((k : Int), (k' : Int)))
    (h1 : l < ne) (h2 : l' < ne) (h3 : k < nf) (h4 : k' < nf) :
    let v := fun r s => !fequal fl (cell nf vz r s) nodata
    let top := pair k k' x (v l k) (v l k')
    let down := pair k k' x (v l' k) (v l' k')
    let vert := pair l l' y top.2.2 down.2.2
    smoothed fl nf ne vz nodata c y x = .ok (vert.1 * (top.1 * cell nf c l k + top.2.1 * cell nf c l k') +
      vert.2.1 * (down.1 * cell nf c l' k + down.2.1 * cell nf c l' k')) := by
  simp only [smoothed, interpolationWeights, hy, hx, cellAt_ok hvz h1 h3, cellAt_ok hvz h1 h4, cellAt_ok hvz h2 h3,
    cellAt_ok hvz h2 h4, Out.bind, interpolateCoarse, cellAt_ok hc h1 h3, cellAt_ok hc h1 h4, cellAt_ok hc h2 h3,
    cellAt_ok hc h2 h4]

/-- Weights of two valid neighbours. -/
theorem pair_valid {n : Nat} {x : ℚ} (h0 : 0 ≤ x) (h1 : x < n) :
    ∃ (k k' : Nat) (t : ℚ), near n x = ((k : Int), (k' : Int)) ∧ Between n x k k' t ∧ Close x k ∧ Close x k' ∧ pair k k' x true true = (1 - t, t, true) := by
  by_cases he : x < 1 / 2 ∨ (n : ℚ) - 1 / 2 ≤ x
  · obtain ⟨k, hk, hn, hp, hcl⟩ := near_edge h0 h1 he
    refine ⟨k, k, 1 / 2, hn, ⟨hk, hk, Or.inl rfl, by norm_num, by norm_num, ?_⟩, hcl, hcl, ?_⟩
    · rw [hp]; ring
    · unfold pair; rw [if_pos rfl]; norm_num
  · rw [not_or, not_lt, not_le] at he
    obtain ⟨k, hk, hn, l1, l2, c1, c2⟩ := near_inner he.1 he.2
    have hk' : (k : ℚ) + 1 + 1 ≤ n := by exact_mod_cast hk
    refine ⟨k, k + 1, x - 1 / 2 - k, hn, ⟨by omega, hk, Or.inr rfl, by linarith, by linarith, ?_⟩, c1, c2, ?_⟩
    · have : (0 : ℚ) ≤ k := by positivity
      rw [min_eq_right (by linarith), max_eq_right (by linarith)]
      push_cast; ring
    · unfold pair
      have hd : ((k + 1 : Nat) : ℚ) + 1 / 2 - ((k : ℚ) + 1 / 2) = 1 := by push_cast; ring
      simp only [Int.cast_natCast]
      rw [if_neg (by omega), hd, div_one, div_one]
      push_cast
      simp only [Bool.and_self, if_true, Prod.mk.injEq, and_true]
      constructor <;> ring

/-- C149: the parameters at a pixel are the bilinear interpolation of the centres of the coarse cells, constant beyond
the outermost centres, if the neighbouring cells hold data. No cell outside of the grid is read. Missing: neighbours
without data, see `c149_range_partial` and `c149_border_violated`. -/
theorem c149_bilinear_partial (fl : ℚ → ℚ) (nf ne : Nat) (vz c : List ℚ) (hvz : vz.length = ne * nf)
    (hc : c.length = ne * nf) (nodata y x : ℚ) (hy0 : 0 ≤ y) (hy : y < ne) (hx0 : 0 ≤ x) (hx : x < nf)
    (hv : ∀ r s, r < ne → s < nf → Close y r → Close x s → fequal fl (vz.getD (r * nf + s) 0) nodata = false) :
    ∃ v, smoothed fl nf ne vz nodata c y x = .ok v ∧ Bilinear ne nf (fun r s => c.getD (r * nf + s) 0) y x v := by
  obtain ⟨l, l', s, hny, hby, cy, cy', hpy⟩ := pair_valid hy0 hy
  obtain ⟨k, k', t, hnx, hbx, cx, cx', hpx⟩ := pair_valid hx0 hx
  refine ⟨_, smoothed_eq hvz hc hny hnx hby.1 hby.2.1 hbx.1 hbx.2.1, l, l', s, k, k', t, hby, hbx, ?_⟩
  have v : ∀ r q, r < ne → q < nf → Close y r → Close x q → fequal fl (cell nf vz r q) nodata = false := hv
  simp only [v l k hby.1 hbx.1 cy cx, v l k' hby.1 hbx.2.1 cy cx', v l' k hby.2.1 hbx.1 cy' cx,
    v l' k' hby.2.1 hbx.2.1 cy' cx', Bool.not_false, hpx, hpy]
  rfl

/-- Two neighbours of which at least one counts. -/
theorem pair_range {k : Nat} {x : ℚ} (l1 : (k : ℚ) ≤ x - 1 / 2) (l2 : x - 1 / 2 < k + 1) {va vb : Bool} {a b lo hi : ℚ}
    (ha : va = true → lo ≤ a ∧ a ≤ hi) (hb : vb = true → lo ≤ b ∧ b ≤ hi) (hv : va = true ∨ vb = true) :
    let p := pair k ((k : Int) + 1) x va vb
    lo ≤ p.1 * a + p.2.1 * b ∧ p.1 * a + p.2.1 * b ≤ hi := by
  simp only
  have hd : ((k : ℚ) + 1 + 1 / 2) - ((k : ℚ) + 1 / 2) = 1 := by ring
  unfold pair
  simp only [Int.cast_natCast, Int.cast_add, Int.cast_one]
  rw [if_neg (by omega), hd]
  cases va <;> cases vb <;> simp at *
  · exact hb
  · exact ha
  · have w0 : 0 ≤ x - ((k : ℚ) + 2⁻¹) := by linarith
    have w1 : 0 ≤ (k : ℚ) + 1 + 2⁻¹ - x := by linarith
    constructor
    · nlinarith [mul_nonneg w1 (sub_nonneg.2 ha.1), mul_nonneg w0 (sub_nonneg.2 hb.1)]
    · nlinarith [mul_nonneg w1 (sub_nonneg.2 ha.2), mul_nonneg w0 (sub_nonneg.2 hb.2)]

theorem pair_flag {k : Nat} {x : ℚ} {va vb : Bool} : (pair k ((k : Int) + 1) x va vb).2.2 = (va || vb) := by
  unfold pair
  simp only
  rw [if_neg (by omega)]
  cases va <;> cases vb <;> rfl

/-- C149: cells without data do not contribute, if the pixel is at least half a cell from the edge of the grid: the value
lies within any bounds that hold for the neighbouring cells with data, as soon as there is one. Missing: pixels within
half a cell of the edge, see `c149_border_violated`. -/
theorem c149_range_partial (fl : ℚ → ℚ) (nf ne : Nat) (vz c : List ℚ) (hvz : vz.length = ne * nf)
    (hc : c.length = ne * nf) (nodata y x : ℚ) (hy0 : 1 / 2 ≤ y) (hy : y < (ne : ℚ) - 1 / 2) (hx0 : 1 / 2 ≤ x)
    (hx : x < (nf : ℚ) - 1 / 2) (lo hi : ℚ)
    (hv : ∀ r s, r < ne → s < nf → Close y r → Close x s → fequal fl (vz.getD (r * nf + s) 0) nodata = false →
      lo ≤ c.getD (r * nf + s) 0 ∧ c.getD (r * nf + s) 0 ≤ hi)
    (hany : ∃ r s : Nat, |(r : ℚ) + 1 / 2 - y| < 1 ∧ |(s : ℚ) + 1 / 2 - x| < 1 ∧
      fequal fl (vz.getD (r * nf + s) 0) nodata = false) :
    ∃ v, smoothed fl nf ne vz nodata c y x = .ok v ∧ lo ≤ v ∧ v ≤ hi := by
  obtain ⟨l, hl, hny, y1, y2, cy, cy'⟩ := near_inner hy0 hy
  obtain ⟨k, hk, hnx, x1, x2, cx, cx'⟩ := near_inner hx0 hx
  have hany' : ∃ r s, (r = l ∨ r = l + 1) ∧ (s = k ∨ s = k + 1) ∧ fequal fl (vz.getD (r * nf + s) 0) nodata = false := by
    obtain ⟨r, s, h1, h2, h⟩ := hany
    rw [abs_lt] at h1 h2
    refine ⟨r, s, ?_, ?_, h⟩
    · have a1 : (r : ℚ) < l + 2 := by linarith
      have a2 : (l : ℚ) < r + 1 := by linarith
      have a1' : r < l + 2 := by exact_mod_cast a1
      have a2' : l < r + 1 := by exact_mod_cast a2
      omega
    · have a1 : (s : ℚ) < k + 2 := by linarith
      have a2 : (k : ℚ) < s + 1 := by linarith
      have a1' : s < k + 2 := by exact_mod_cast a1
      have a2' : k < s + 1 := by exact_mod_cast a2
      omega
  clear hany
  refine ⟨_, smoothed_eq hvz hc (l' := l + 1) (k' := k + 1) hny hnx (by omega) hl (by omega) hk, ?_⟩
  have v : ∀ r q, r < ne → q < nf → Close y r → Close x q → (!fequal fl (cell nf vz r q) nodata) = true →
      lo ≤ cell nf c r q ∧ cell nf c r q ≤ hi := by
    intro r q h1 h2 h3 h4 h5
    rw [Bool.not_eq_true'] at h5
    exact hv r q h1 h2 h3 h4 h5
  have top := fun h => pair_range x1 x2 (v l k (by omega) (by omega) cy cx) (v l (k + 1) (by omega) hk cy cx') h
  have down := fun h => pair_range x1 x2 (v (l + 1) k hl (by omega) cy' cx) (v (l + 1) (k + 1) hl hk cy' cx') h
  simp only at top down
  push_cast at top down ⊢
  apply pair_range y1 y2
  · intro h
    rw [pair_flag] at h
    exact top (by simpa using h)
  · intro h
    rw [pair_flag] at h
    exact down (by simpa using h)
  · rw [pair_flag, pair_flag]
    obtain ⟨r, s, hr, hs, hf⟩ := hany'
    have hf' : fequal fl (cell nf vz r s) nodata = false := hf
    rcases hr with rfl | rfl <;> rcases hs with rfl | rfl <;> simp [hf']

/-- C149: where no neighbour holds data, and the pixel is at least half a cell from the edge of the grid, the parameter
is 0. -/
theorem c149_none (fl : ℚ → ℚ) (nf ne : Nat) (vz c : List ℚ) (hvz : vz.length = ne * nf)
    (hc : c.length = ne * nf) (nodata y x : ℚ) (hy0 : 1 / 2 ≤ y) (hy : y < (ne : ℚ) - 1 / 2) (hx0 : 1 / 2 ≤ x)
    (hx : x < (nf : ℚ) - 1 / 2)
    (hv : ∀ r s, r < ne → s < nf → Close y r → Close x s → fequal fl (vz.getD (r * nf + s) 0) nodata = true) :
    smoothed fl nf ne vz nodata c y x = .ok 0 := by
  obtain ⟨l, hl, hny, y1, y2, cy, cy'⟩ := near_inner hy0 hy
  obtain ⟨k, hk, hnx, x1, x2, cx, cx'⟩ := near_inner hx0 hx
  have v : ∀ r q, r < ne → q < nf → Close y r → Close x q → fequal fl (cell nf vz r q) nodata = true := hv
  have := smoothed_eq (fl := fl) (nodata := nodata) hvz hc (l' := l + 1) (k' := k + 1) hny hnx (by omega) hl (by omega) hk
  rw [this]
  simp only [v l k (by omega) (by omega) cy cx, v l (k + 1) (by omega) hk cy cx', v (l + 1) k hl (by omega) cy' cx,
    v (l + 1) (k + 1) hl hk cy' cx', Bool.not_true]
  push_cast
  have p0 : ∀ (q : Nat) (z : ℚ), pair q ((q : Int) + 1) z false false = (0, 0, false) := by
    intro q z
    unfold pair
    simp only
    rw [if_neg (by omega)]
    rfl
  rw [p0, p0]
  simp

/-- C149, violated: within half a cell of the left edge, a cell without data takes part with its full weight: the value
is interpolated with whatever the cell contains, although the cell below holds data. -/
theorem c149_border_violated (fl : ℚ → ℚ) (nf ne : Nat) (vz c : List ℚ) (hvz : vz.length = ne * nf)
    (hc : c.length = ne * nf) (nodata y x : ℚ) (t : Nat) (ht : t + 1 < ne) (hy0 : (t : ℚ) + 1 / 2 ≤ y)
    (hy : y < (t : ℚ) + 3 / 2) (hnf : 0 < nf) (hx0 : 0 ≤ x) (hx : x < 1 / 2)
    (_ : fequal fl (vz.getD (t * nf) 0) nodata = true) (_ : fequal fl (vz.getD ((t + 1) * nf) 0) nodata = false) :
    smoothed fl nf ne vz nodata c y x =
      .ok (((t : ℚ) + 3 / 2 - y) * c.getD (t * nf) 0 + (y - t - 1 / 2) * c.getD ((t + 1) * nf) 0) := by
  have hnf1 : (1 : ℚ) ≤ nf := by exact_mod_cast hnf
  have htq : (t : ℚ) + 1 + 1 ≤ ne := by exact_mod_cast ht
  have ht0 : (0 : ℚ) ≤ t := by positivity
  obtain ⟨k, hk, hnx, hp, -⟩ := near_edge (n := nf) hx0 (by linarith) (Or.inl hx)
  have hk0 : k = 0 := by
    have : max 0 (min ((nf : ℚ) - 1) (x - 1 / 2)) = 0 := max_eq_left (le_trans (min_le_right _ _) (by linarith))
    rw [this] at hp
    exact_mod_cast hp.symm
  subst hk0
  obtain ⟨l, hl, hny, y1, y2, -, -⟩ := near_inner (n := ne) (x := y) (by linarith) (by linarith)
  have hlt : l = t := by
    have h1 : (l : ℚ) < t + 1 := by linarith
    have h2 : (t : ℚ) < l + 1 := by linarith
    have h1' : l < t + 1 := by exact_mod_cast h1
    have h2' : t < l + 1 := by exact_mod_cast h2
    omega
  subst hlt
  have := smoothed_eq (fl := fl) (nodata := nodata) hvz hc (l' := l + 1) hny hnx (by omega) hl hk hk
  rw [this]
  have pe : ∀ a b, pair ((0 : Nat) : Int) ((0 : Nat) : Int) x a b = (1 / 2, 1 / 2, true) := by
    intro a b
    unfold pair
    simp only
    rw [if_pos trivial]
  have hd : ((l : ℚ) + 1 + 1 / 2) - ((l : ℚ) + 1 / 2) = 1 := by ring
  have pv : pair l ((l : Int) + 1) y true true = ((l : ℚ) + 3 / 2 - y, y - l - 1 / 2, true) := by
    unfold pair
    simp only [Int.cast_natCast, Int.cast_add, Int.cast_one]
    rw [if_neg (by omega), hd, div_one, div_one]
    simp only [Bool.and_self, if_true, Prod.mk.injEq, and_true]
    constructor <;> ring
  simp only [pe]
  push_cast
  rw [pv]
  simp only [cell, add_zero]
  congr 1
  ring

/-- C149: the position of every pixel of the image is inside of the coarse grid, whose number of columns (rows) is the
smallest that covers the image. -/
theorem c149_inside (k n : Nat) (fullRes res : ℚ) (hf : 0 < fullRes) (hr : 0 < res) (hk : k < n) :
    0 ≤ position k fullRes res ∧ position k fullRes res < (⌈n * fullRes / res⌉₊ : ℚ) := by
  unfold position
  refine ⟨by positivity, lt_of_lt_of_le ?_ (Nat.le_ceil _)⟩
  apply div_lt_div_of_pos_right _ hr
  apply mul_lt_mul_of_pos_right _ hf
  exact_mod_cast hk

end Verif.Prod
