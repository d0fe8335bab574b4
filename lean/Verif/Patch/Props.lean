import Verif.Patch.Model
import Mathlib.Algebra.BigOperators.Group.List.Basic
import Mathlib.Tactic.Linarith
import Mathlib.Tactic.Ring
import Mathlib.Tactic.Positivity

/-! Property C315. -/

namespace Verif.Patch

open Verif.Str (Out)

/-- The pixels of an image, row by row. -/
def pixels (f : Nat → Nat → Int) (w h : Nat) : List Int :=
  (List.range h).flatMap fun i => (List.range w).map fun j => f i j

theorem pixels_get (f : Nat → Nat → Int) (w h i j : Nat) (hi : i < h) (hj : j < w) :
    (pixels f w h)[i * w + j]? = some (f i j) := by
  unfold pixels
  induction h generalizing i with
  | zero => omega
  | succ h ih =>
    have len : ∀ k, ((List.range k).flatMap fun i => (List.range w).map fun j => f i j).length = k * w := by
      intro k
      induction k with
      | zero => simp
      | succ k ihk => rw [List.range_succ, List.flatMap_append, List.length_append, ihk]; simp; ring
    rw [List.range_succ, List.flatMap_append]
    by_cases hlt : i < h
    · have : i * w + j < h * w := by
        have : (i + 1) * w ≤ h * w := Nat.mul_le_mul_right _ hlt
        have e : (i + 1) * w = i * w + w := by ring
        omega
      rw [List.getElem?_append_left (by rw [len]; exact this)]
      exact ih i hlt
    · obtain rfl : i = h := by omega
      rw [List.getElem?_append_right (by rw [len]; omega), len, show i * w + j - i * w = j from by omega]
      simp [hj]

theorem px_get (f : Nat → Nat → Int) (w h i j : Nat) (hi : i < h) (hj : j < w) (k : Int) (hk : k = ((i * w + j : Nat) : Int)) :
    px (pixels f w h) k = .ok (f i j) := by
  subst hk
  unfold px
  rw [if_neg (by omega), Int.toNat_natCast, pixels_get f w h i j hi hj]

theorem dist_abs (a b : Int) : dist a b = |a - b| := by
  unfold dist
  split
  · rw [abs_of_pos (by omega)]
  · rw [abs_of_nonpos (by omega)]; omega

theorem row_eq (l r : Nat → Nat → Int) (w h i : Nat) (hi : i < h) (n j : Nat) (hn : j + n = w) (diff : Int) (p1 p2 : Int)
    (h1 : p1 = ((i * w + j : Nat) : Int)) (h2 : p2 = (((i + 1) * (w + 2) + (j + 1) : Nat) : Int)) :
    row (pixels l w h) (pixels r (w + 2) (h + 2)) n p1 p2 diff =
      .ok (diff + ((List.range' j n).map fun j => |l i j - r (i + 1) (j + 1)|).sum) := by
  induction n generalizing j diff p1 p2 with
  | zero => simp [row]
  | succ n ih =>
    rw [row, px_get l w h i j hi (by omega) p1 h1]
    show (px (pixels r (w + 2) (h + 2)) p2).bind _ = _
    rw [px_get r (w + 2) (h + 2) (i + 1) (j + 1) (by omega) (by omega) p2 h2]
    show row _ _ n (p1 + 1) (p2 + 1) _ = _
    rw [ih (j + 1) (by omega) _ (p1 + 1) (p2 + 1) (by rw [h1]; push_cast; ring) (by rw [h2]; push_cast; ring), dist_abs,
      List.range'_succ, List.map_cons, List.sum_cons]
    congr 1; ring

theorem rows_eq (l r : Nat → Nat → Int) (w h n i : Nat) (hn : i + n = h) (diff : Int) (p1 p2 : Int)
    (h1 : p1 = ((i * w : Nat) : Int)) (h2 : p2 = (((i + 1) * (w + 2) + 1 : Nat) : Int)) :
    rows (pixels l w h) (pixels r (w + 2) (h + 2)) w (w + 2 : Nat) w n p1 p2 diff =
      .ok (diff + ((List.range' i n).map fun i => ((List.range' 0 w).map fun j => |l i j - r (i + 1) (j + 1)|).sum).sum) := by
  induction n generalizing i diff p1 p2 with
  | zero => simp [rows]
  | succ n ih =>
    rw [rows, row_eq l r w h i (by omega) w 0 (by omega) diff p1 p2 (by rw [h1]; push_cast; ring) (by rw [h2])]
    show rows _ _ _ _ w n (p1 + w) (p2 + (w + 2 : Nat)) _ = _
    rw [ih (i + 1) (by omega) _ _ _ (by rw [h1]; push_cast; ring) (by rw [h2]; push_cast; ring), List.range'_succ, List.map_cons,
      List.sum_cons]
    congr 1; ring

/-- Sum of the absolute differences between the left patch and the right patch without its border. -/
def total (l r : Nat → Nat → Int) (w h : Nat) : Int :=
  ((List.range h).map fun i => ((List.range w).map fun j => |l i j - r (i + 1) (j + 1)|).sum).sum

/-- C315: for patches of any size and content, no pixel outside of the patches is read, and they are too different if and
only if the mean absolute difference between the pixels of the left patch and those at the same place of the right
patch, rounded to an integer (half up), is not below the threshold. -/
theorem c315_mean (l r : Nat → Nat → Int) (w h : Nat) (hw : 0 < w) (hh : 0 < h) (threshold : Int)
    (hs : 2 * total l r w h < 65535 * (w * h)) :
    different (pixels l w h) (pixels r (w + 2) (h + 2)) w h threshold =
      .ok (decide (2 * threshold * (w * h) ≤ 2 * total l r w h + w * h)) := by
  have hn : (0 : ℚ) < ((w * h : Nat) : ℚ) := by exact_mod_cast Nat.mul_pos hw hh
  unfold different meanDiff
  dsimp only
  have e1 : (((h / 2 : Nat) : Int) - ((h / 2 : Nat) : Int)) * (w : Int) + (((w / 2 : Nat) : Int) - ((w / 2 : Nat) : Int)) =
      ((0 * w : Nat) : Int) := by simp
  have e2 : ((((h + 2) / 2 : Nat) : Int) - ((h / 2 : Nat) : Int)) * ((w + 2 : Nat) : Int) +
      ((((w + 2) / 2 : Nat) : Int) - ((w / 2 : Nat) : Int)) = (((0 + 1) * (w + 2) + 1 : Nat) : Int) := by
    rw [show (h + 2) / 2 = h / 2 + 1 from by omega, show (w + 2) / 2 = w / 2 + 1 from by omega]
    push_cast; ring
  rw [rows_eq l r w h h 0 (by omega) 0 _ _ e1 e2, ← List.range_eq_range', ← List.range_eq_range', zero_add]
  show ((if w * h = 0 then Out.ub else _) : Out Int).bind _ = _
  rw [if_neg (Nat.mul_pos hw hh).ne']
  have ht : ((List.range h).map fun i => ((List.range w).map fun j => |l i j - r (i + 1) (j + 1)|).sum).sum = total l r w h := rfl
  rw [ht]
  have hv : ∀ t : Int, t ≤ ⌊(total l r w h : ℚ) / ((w * h : Nat) : ℚ) + 1 / 2⌋ ↔
      2 * t * (w * h) ≤ 2 * total l r w h + w * h := by
    intro t
    rw [Int.le_floor, ← sub_le_iff_le_add, le_div_iff₀ hn]
    constructor
    · intro hc
      have : (2 : ℚ) * t * (w * h) ≤ 2 * total l r w h + w * h := by push_cast at hc; linarith
      exact_mod_cast this
    · intro hc
      have : (2 : ℚ) * t * (w * h) ≤ 2 * total l r w h + w * h := by exact_mod_cast hc
      push_cast; linarith
  have hb : ¬ ⌊(total l r w h : ℚ) / ((w * h : Nat) : ℚ) + 1 / 2⌋ > 32767 := by
    intro hc
    have := (hv 32768).1 (by omega)
    nlinarith
  rw [if_neg hb]
  show Out.ok _ = Out.ok _
  congr 1
  exact decide_eq_decide.2 (hv threshold)

/-- Two patches with a mean difference of 5/2, rounded to 3: too different for the threshold 3, not for 4. -/
example : total (fun _ j => if j = 0 then 10 else 20) (fun _ j => if j = 1 then 12 else 17) 2 1 = 5 ∧
    different (pixels (fun _ j => if j = 0 then 10 else 20) 2 1) (pixels (fun _ j => if j = 1 then 12 else 17) 4 3) 2 1 3 =
      .ok true ∧
    different (pixels (fun _ j => if j = 0 then 10 else 20) 2 1) (pixels (fun _ j => if j = 1 then 12 else 17) 4 3) 2 1 4 =
      .ok false := by
  have t : total (fun _ j => if j = 0 then 10 else 20) (fun _ j => if j = 1 then 12 else 17) 2 1 = 5 := by decide
  refine ⟨t, ?_, ?_⟩
  · rw [c315_mean _ _ 2 1 (by omega) (by omega) 3 (by rw [t]; norm_num), t]; rfl
  · rw [c315_mean _ _ 2 1 (by omega) (by omega) 4 (by rw [t]; norm_num), t]; rfl

end Verif.Patch
