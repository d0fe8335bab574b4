import Mathlib.Tactic.Ring
import Mathlib.Tactic.Linarith
import Verif.Str.Props
import Verif.Tile.Lemmas
import Verif.Halo.Model
import Verif.Halo.Spec

/-! # Copying into the mosaic -/

namespace Verif.Halo

open Verif.Str Verif.Str.Spec Spec

theorem row_spec (v : Nat → Int) (base : Nat) : ∀ (n : Nat) (m : Nat → Int) (j : Nat),
    ((List.range n).foldl (fun m col => set m (base + col) (v col)) m) j =
      if base ≤ j ∧ j < base + n then v (j - base) else m j := by
  intro n
  induction n with
  | zero => intro m j; simp
  | succ n ih =>
    intro m j
    rw [List.range_succ, List.foldl_append]
    simp only [List.foldl_cons, List.foldl_nil, set]
    by_cases hj : j = base + n
    · rw [if_pos hj, if_pos (by omega)]
      congr 1
      omega
    · rw [if_neg hj, ih]
      by_cases hb : base ≤ j ∧ j < base + n
      · rw [if_pos hb, if_pos (by omega)]
      · rw [if_neg hb, if_neg (by omega)]

theorem cell_inj {mx r c r' c' : Nat} (hc : c < mx) (hc' : c' < mx) (h : r * mx + c = r' * mx + c') :
    r = r' ∧ c = c' := by
  have h1 : (r * mx + c) / mx = r := by
    rw [mul_comm, Nat.mul_add_div (by omega), Nat.div_eq_of_lt hc, add_zero]
  have h2 : (r' * mx + c') / mx = r' := by
    rw [mul_comm, Nat.mul_add_div (by omega), Nat.div_eq_of_lt hc', add_zero]
  have : r = r' := by rw [← h1, h, h2]
  subst this
  exact ⟨rfl, by omega⟩

theorem copy_spec (nodata : Int) (mx : Nat) (px py : Nat × Nat) (src : Option (Nat → Int)) (m : Nat → Int)
    (r c : Nat) (hc : c < mx) (hp : px.2 + px.1 ≤ mx) :
    copy nodata mx px py src m (r * mx + c) =
      if px.2 ≤ c ∧ c < px.2 + px.1 ∧ py.2 ≤ r ∧ r < py.2 + py.1 then
        (valueOf nodata src ((r - py.2) * px.1 + (c - px.2)))
      else m (r * mx + c) := by
  unfold copy
  generalize py.1 = n
  have key : ∀ row (m : Nat → Int), ((List.range px.1).foldl (fun m col =>
      set m ((row + py.2) * mx + col + px.2)
        (valueOf nodata src (row * px.1 + col))) m) (r * mx + c) =
      if px.2 ≤ c ∧ c < px.2 + px.1 ∧ r = row + py.2 then
        (valueOf nodata src (row * px.1 + (c - px.2))) else m (r * mx + c) := by
    intro row m
    have e : ∀ col, (row + py.2) * mx + col + px.2 = ((row + py.2) * mx + px.2) + col := fun col => by ring
    simp only [e]
    rw [row_spec (fun col => valueOf nodata src (row * px.1 + col))]
    by_cases hr : px.2 ≤ c ∧ c < px.2 + px.1 ∧ r = row + py.2
    · obtain ⟨h1, h2, h3⟩ := hr
      rw [if_pos (show px.2 ≤ c ∧ c < px.2 + px.1 ∧ r = row + py.2 from ⟨h1, h2, h3⟩), if_pos (by rw [h3]; omega)]
      have : r * mx + c - ((row + py.2) * mx + px.2) = c - px.2 := by rw [h3]; omega
      rw [this]
    · rw [if_neg hr, if_neg]
      rintro ⟨h1, h2⟩
      apply hr
      have h3 : r * mx + c = (row + py.2) * mx + (px.2 + (r * mx + c - ((row + py.2) * mx + px.2))) := by omega
      obtain ⟨a, b⟩ := cell_inj hc (by omega) h3
      exact ⟨by omega, by omega, a⟩
  induction n generalizing m with
  | zero => simp
  | succ n ih =>
    rw [List.range_succ, List.foldl_append]
    simp only [List.foldl_cons, List.foldl_nil]
    rw [key n]
    by_cases h1 : px.2 ≤ c ∧ c < px.2 + px.1 ∧ r = n + py.2
    · rw [if_pos h1, if_pos (by omega)]
      have : r - py.2 = n := by omega
      rw [this]
    · rw [if_neg h1, ih]
      by_cases h2 : px.2 ≤ c ∧ c < px.2 + px.1 ∧ py.2 ≤ r ∧ r < py.2 + n
      · rw [if_pos h2, if_pos (by omega)]
      · rw [if_neg h2, if_neg (by omega)]

/-- The neighbour in whose part a position is. -/
def relOf (h n c : Nat) : Int := if c < h then -1 else if c < h + n then 0 else 1

theorem place_iff {h n c : Nat} (hc : c < n + h * 2) {rel : Int} (hr : rel = -1 ∨ rel = 0 ∨ rel = 1) :
    ((place h n rel).2 ≤ c ∧ c < (place h n rel).2 + (place h n rel).1) ↔ rel = relOf h n c := by
  unfold place relOf
  rcases hr with rfl | rfl | rfl
  · simp only [if_pos (show (-1 : Int) < 0 by decide)]
    split
    · simp; omega
    · split <;> simp <;> omega
  · simp only [if_neg (show ¬ (0 : Int) < 0 by decide), if_true]
    split
    · simp; omega
    · split <;> simp <;> omega
  · simp only [if_neg (show ¬ (1 : Int) < 0 by decide), if_neg (show ¬ (1 : Int) = 0 by decide)]
    split
    · simp; omega
    · split <;> simp <;> omega

theorem place_le (h n : Nat) (rel : Int) : (place h n rel).2 + (place h n rel).1 ≤ n + h * 2 := by
  unfold place
  split
  · show 0 + h ≤ _; omega
  · split
    · show h + n ≤ _; omega
    · show (n + h * 2) - h + h ≤ _; omega

theorem relOf_cases (h n c : Nat) : relOf h n c = -1 ∨ relOf h n c = 0 ∨ relOf h n c = 1 := by
  unfold relOf
  split
  · exact Or.inl rfl
  · split
    · exact Or.inr (Or.inl rfl)
    · exact Or.inr (Or.inr rfl)

theorem neighbour_spec {c rel k t : Int} (h0 : 0 ≤ c) (h1 : c < k) (hr : rel = -1 ∨ rel = 0 ∨ rel = 1) :
    0 ≤ (neighbour c rel k t).1 ∧ (neighbour c rel k t).1 < k ∧
      (neighbour c rel k t).2 * k + (neighbour c rel k t).1 = t * k + c + rel ∧
      t - 1 ≤ (neighbour c rel k t).2 ∧ (neighbour c rel k t).2 ≤ t + 1 := by
  unfold neighbour
  split
  · have : c = 0 ∧ rel = -1 := by omega
    obtain ⟨rfl, rfl⟩ := this
    refine ⟨by simp; omega, by simp, by simp; ring, by simp, by simp; omega⟩
  · split
    · have : c = k - 1 ∧ rel = 1 := by omega
      obtain ⟨rfl, rfl⟩ := this
      refine ⟨by simp, by simp; omega, by simp; ring, by simp; omega, by simp⟩
    · refine ⟨by simp; omega, by simp; omega, by simp; ring, by simp, by simp⟩

/-- One direction: where the pixels of a neighbour are in its tile, and where in the large image. `off` is the
first pixel of the part in the file. -/
theorem dim_spec {k n h c : Nat} {t : Int} (hn : 0 < n) (hk : c < k) (hh : h ≤ n) {pos : Nat} (hpos : pos < n + h * 2)
    (rel : Int) (hrel : rel = relOf h n pos) (off : Int)
    (hoff : off = if rel < 0 then (neighbour c rel k t).1 * n + n - h else (neighbour c rel k t).1 * n) :
    0 ≤ off ∧ off + ((place h n rel).1 : Int) ≤ k * n ∧
    (neighbour c rel k t).2 * ((k * n : Nat) : Int) + (off + ((pos - (place h n rel).2 : Nat) : Int)) =
      (t * k + c) * n + pos - h ∧
    ((t * k + c) * n + pos - h) / ((k * n : Nat) : Int) = (neighbour c rel k t).2 := by
  have hcs := relOf_cases h n pos
  rw [← hrel] at hcs
  obtain ⟨a1, a2, a3, -, -⟩ := neighbour_spec (t := t) (k := (k : Int)) (Int.natCast_nonneg c) (by exact_mod_cast hk) hcs
  have hpl := (place_iff hpos hcs).2 hrel
  generalize (neighbour (c : Int) rel k t).1 = c' at *
  generalize (neighbour (c : Int) rel k t).2 = t' at *
  have hn' : (0 : Int) < n := by exact_mod_cast hn
  have hh' : (h : Int) ≤ n := by exact_mod_cast hh
  have hcn : 0 ≤ c' * n := Int.mul_nonneg a1 hn'.le
  have hcn2 : c' * n + n ≤ k * n := by
    have : (c' + 1) * n ≤ k * n := Int.mul_le_mul_of_nonneg_right (by omega) hn'.le
    linarith
  have hb : 0 ≤ off ∧ off + ((place h n rel).1 : Int) ≤ k * n := by
    unfold place
    rcases hcs with rfl | rfl | rfl
    · rw [if_pos (by decide)] at hoff
      rw [if_pos (by decide)]
      constructor
      · rw [hoff]; linarith
      · rw [hoff]; simp; linarith
    · rw [if_neg (by decide)] at hoff
      rw [if_neg (by decide), if_pos rfl]
      constructor
      · rw [hoff]; exact hcn
      · rw [hoff]; exact hcn2
    · rw [if_neg (by decide)] at hoff
      rw [if_neg (by decide), if_neg (by decide)]
      constructor
      · rw [hoff]; exact hcn
      · rw [hoff]; simp; linarith
  have hg : t' * ((k * n : Nat) : Int) + (off + ((pos - (place h n rel).2 : Nat) : Int)) =
      (t * k + c) * n + pos - h := by
    have e1 : ((pos - (place h n rel).2 : Nat) : Int) = pos - (place h n rel).2 := by
      have := hpl.1; omega
    have e2 : t' * ((k * n : Nat) : Int) + c' * n = (t * k + c + rel) * n := by
      rw [← a3]; push_cast; ring
    rw [e1, hoff]
    unfold place
    rcases hcs with rfl | rfl | rfl
    · rw [if_pos (by decide), if_pos (by decide)]
      have : (t * k + c + -1) * n = (t * k + c) * n - n := by ring
      simp only [Nat.cast_zero]
      linarith
    · rw [if_neg (by decide), if_neg (by decide), if_pos rfl]
      have : (t * k + c + 0) * n = (t * k + c) * n := by ring
      simp only
      linarith
    · rw [if_neg (by decide), if_neg (by decide), if_neg (by decide)]
      have : (t * k + c + 1) * n = (t * k + c) * n + n := by ring
      have e3 : ((n + h * 2 - h : Nat) : Int) = n + h := by omega
      simp only [e3]
      linarith
  refine ⟨hb.1, hb.2, hg, ?_⟩
  rw [← hg]
  have hlt : (pos - (place h n rel).2 : Nat) < (place h n rel).1 := by have := hpl.1; have := hpl.2; omega
  have hpos2 : (0 : Int) < ((k * n : Nat) : Int) := by
    have : 0 < k * n := Nat.mul_pos (by omega) hn
    exact_mod_cast this
  rw [mul_comm, Int.mul_add_ediv_left _ _ hpos2.ne', Int.ediv_eq_zero_of_lt, add_zero]
  · have := hb.1; omega
  · have h2 := hb.2
    push_cast
    omega

end Verif.Halo
