import Verif.Coreg.Shift
import Verif.Coreg.Control
import Verif.Coreg.Register
import Verif.Coreg.Pyramid

/-! Concrete cases that meet the hypotheses of the theorems on co-registration. -/

namespace Verif.Coreg.Examples

open Verif.Str (Out)
open Verif.Index (truncQ short)

/-! C225: two equations with a pivot that has to be fetched from the second row, and a singular matrix -/

def exA : Mat := fun i j => if i = 0 ∧ j = 0 then 0 else if i = 0 then 2 else if j = 0 then 4 else 6
def exB : Vec := fun i => if i = 0 then 2 else 14

example : (solve 2 exA exB).map (fun s => (s.2 0, s.2 1)) = some (2, 1) := by decide +kernel
example : solve 2 (fun _ _ => 1) exB = none :=
  (c225_singular 2 _ _).2 ⟨fun j => if j = 0 then 1 else -1, ⟨0, by decide, by decide⟩, by
    intro i _
    simp [Finset.sum_range_succ]⟩

/-! C226 -/

/-- Six points that are moved by half a pixel to the right. -/
def six : List Tie := [⟨0, 0, 1 / 2, 0⟩, ⟨1, 0, 3 / 2, 0⟩, ⟨0, 1, 1 / 2, 1⟩, ⟨1, 1, 3 / 2, 1⟩, ⟨2, 0, 5 / 2, 0⟩, ⟨0, 2, 1 / 2, 2⟩]

theorem six_zero {a b c d e f : ℚ} (h : ¬ 0 < a ^ 2 + b ^ 2 + (c ^ 2 + d ^ 2) + (e ^ 2 + f ^ 2)) :
    a = 0 ∧ b = 0 ∧ c = 0 ∧ d = 0 ∧ e = 0 ∧ f = 0 := by
  have n := fun x : ℚ => sq_nonneg x
  have z : ∀ x : ℚ, x ^ 2 ≤ 0 → x = 0 := fun x hx => pow_eq_zero_iff (two_ne_zero) |>.1 (le_antisymm hx (n x))
  have := n a; have := n b; have := n c; have := n d; have := n e; have := n f
  refine ⟨z a ?_, z b ?_, z c ?_, z d ?_, z e ?_, z f ?_⟩ <;> linarith

theorem six_best : ∀ a0' a1' a2' b0' b1' b2' : ℚ, ¬ (a0' = 1 / 2 ∧ a1' = 1 ∧ a2' = 0 ∧ b0' = 0 ∧ b1' = 0 ∧ b2' = 1) →
    Spec.misfit (Spec.affine (1 / 2) 1 0 0 0 1) (pts six) < Spec.misfit (Spec.affine a0' a1' a2' b0' b1' b2') (pts six) := by
  intro a0 a1 a2 b0 b1 b2 hne
  have h0 : Spec.misfit (Spec.affine (1 / 2) 1 0 0 0 1) (pts six) = 0 := by
    norm_num [Spec.misfit, Spec.affine, pts, six]
  rw [h0]
  by_contra hc
  apply hne
  have e : Spec.misfit (Spec.affine a0 a1 a2 b0 b1 b2) (pts six) =
      ((a0 - 1 / 2) ^ 2 + b0 ^ 2 + ((a0 + a1 - 3 / 2) ^ 2 + (b0 + b1) ^ 2) + ((a0 + a2 - 1 / 2) ^ 2 + (b0 + b2 - 1) ^ 2)) +
      (((a0 + a1 + a2 - 3 / 2) ^ 2 + (b0 + b1 + b2 - 1) ^ 2) + ((a0 + a1 * 2 - 5 / 2) ^ 2 + (b0 + b1 * 2) ^ 2) +
        ((a0 + a2 * 2 - 1 / 2) ^ 2 + (b0 + b2 * 2 - 2) ^ 2)) := by
    norm_num [Spec.misfit, Spec.affine, pts, six]
    ring
  rw [e] at hc
  obtain ⟨h1, h2, h3, h4, h5, h6⟩ := six_zero (a := a0 - 1 / 2) (b := b0) (c := a0 + a1 - 3 / 2) (d := b0 + b1)
    (e := a0 + a2 - 1 / 2) (f := b0 + b2 - 1) (fun h => hc (by positivity))
  refine ⟨?_, ?_, ?_, ?_, ?_, ?_⟩ <;> linarith

example (x y : ℚ) : transformed .affine (coefficients .affine six (fun _ => 0)) x y = (1 / 2 + 1 * x + 0 * y, 0 + 0 * x + 1 * y) :=
  c226_affine_partial six _ (by decide) _ _ _ _ _ _ six_best (by norm_num [abs_of_pos]) (by norm_num) x y

/-- Twelve points on a grid that are moved by a quarter of a pixel. -/
def twelve : List Tie := [⟨0, 0, 1 / 4, 0⟩, ⟨1, 0, 5 / 4, 0⟩, ⟨2, 0, 9 / 4, 0⟩, ⟨0, 1, 1 / 4, 1⟩, ⟨1, 1, 5 / 4, 1⟩, ⟨0, 2, 1 / 4, 2⟩,
  ⟨2, 1, 9 / 4, 1⟩, ⟨1, 2, 5 / 4, 2⟩, ⟨2, 2, 9 / 4, 2⟩, ⟨3, 0, 13 / 4, 0⟩, ⟨3, 1, 13 / 4, 1⟩, ⟨3, 2, 13 / 4, 2⟩]

def quarterA : Nat → ℚ := fun i => if i = 0 then 1 / 4 else if i = 1 then 1 else 0
def quarterB : Nat → ℚ := fun i => if i = 2 then 1 else 0

theorem misfit_zero {T : ℚ → ℚ → ℚ × ℚ} {l : List (ℚ × ℚ × ℚ × ℚ)} (h : ¬ 0 < Spec.misfit T l) :
    ∀ p ∈ l, (T p.1 p.2.1).1 = p.2.2.1 ∧ (T p.1 p.2.1).2 = p.2.2.2 := by
  unfold Spec.misfit at h
  induction l with
  | nil => intro p hp; cases hp
  | cons q l ih =>
    rw [List.map_cons, List.sum_cons] at h
    have hnn : 0 ≤ (l.map (fun p => ((T p.1 p.2.1).1 - p.2.2.1) ^ 2 + ((T p.1 p.2.1).2 - p.2.2.2) ^ 2)).sum := by
      apply List.sum_nonneg
      intro x hx
      obtain ⟨p, -, rfl⟩ := List.mem_map.1 hx
      positivity
    have n1 := sq_nonneg ((T q.1 q.2.1).1 - q.2.2.1)
    have n2 := sq_nonneg ((T q.1 q.2.1).2 - q.2.2.2)
    intro p hp
    rcases List.mem_cons.1 hp with rfl | hp
    · have z : ∀ x : ℚ, x ^ 2 ≤ 0 → x = 0 := fun x hx => pow_eq_zero_iff (two_ne_zero) |>.1 (le_antisymm hx (sq_nonneg x))
      exact ⟨sub_eq_zero.1 (z _ (by linarith)), sub_eq_zero.1 (z _ (by linarith))⟩
    · exact ih (by linarith) p hp

theorem twelve_best : ∀ a' b' : Nat → ℚ, ¬ (∀ i, i < 6 → a' i = quarterA i ∧ b' i = quarterB i) →
    Spec.misfit (Spec.quadratic quarterA quarterB) (pts twelve) < Spec.misfit (Spec.quadratic a' b') (pts twelve) := by
  intro a b hne
  have h0 : Spec.misfit (Spec.quadratic quarterA quarterB) (pts twelve) = 0 := by
    norm_num [Spec.misfit, Spec.quadratic, pts, twelve, quarterA, quarterB]
  rw [h0]
  by_contra hc
  apply hne
  have key := misfit_zero hc
  have k1 := key (0, 0, 1 / 4, 0) (by simp [pts, twelve])
  have k2 := key (1, 0, 5 / 4, 0) (by simp [pts, twelve])
  have k3 := key (2, 0, 9 / 4, 0) (by simp [pts, twelve])
  have k4 := key (0, 1, 1 / 4, 1) (by simp [pts, twelve])
  have k5 := key (1, 1, 5 / 4, 1) (by simp [pts, twelve])
  have k6 := key (0, 2, 1 / 4, 2) (by simp [pts, twelve])
  norm_num [Spec.quadratic] at k1 k2 k3 k4 k5 k6
  obtain ⟨p1, q1⟩ := k1
  obtain ⟨p2, q2⟩ := k2
  obtain ⟨p3, q3⟩ := k3
  obtain ⟨p4, q4⟩ := k4
  obtain ⟨p5, q5⟩ := k5
  obtain ⟨p6, q6⟩ := k6
  intro i hi
  interval_cases i <;> simp only [quarterA, quarterB] <;> norm_num <;> constructor <;> linarith

example (x y : ℚ) : transformed .polynomial (coefficients .polynomial twelve (fun _ => 0)) x y =
    Spec.quadratic quarterA quarterB x y :=
  c226_polynomial_partial twelve _ (by decide) _ _ twelve_best (by norm_num [quarterA, abs_of_pos]) (by norm_num [quarterB]) x y

/-- Two points that are moved by 3 pixels: the fitted shift is 3.75 pixels. -/
def two : List Tie := [⟨0, 0, 3, 0⟩, ⟨10, 0, 13, 0⟩]

example : transformed .translation (coefficients .translation two (fun _ => 0)) 0 0 = (15 / 4, 0) := by
  rw [c226_shift_violated two _ (by decide) 3 0 (by norm_num [two]) (by norm_num [two]) (Or.inl (by norm_num [abs_of_pos]))
    (by norm_num [two, abs_of_pos]) (by norm_num [two])]
  norm_num [Spec.shift, two]

example : transformed .translation (coefficients .translation [⟨0, 0, 1 / 2, 0⟩, ⟨10, 0, 41 / 4, 0⟩] (fun _ => 0)) 0 0 =
    (3 / 8, 0) := by
  rw [c226_shift_partial _ _ (by decide) (3 / 8) 0 (by norm_num) (by norm_num) (by norm_num [abs_of_pos]) (by norm_num)]
  norm_num [Spec.shift]

/-! C227: three points, the last of which is off -/

example : (inliers [⟨0, 0, 0, 0⟩, ⟨1, 0, 1, 0⟩, ⟨2, 0, 9, 0⟩] ⟨fun _ => 0, [0, 0, 49], 4⟩).map (fun t => t.x1) = [0, 1] := by
  decide +kernel
example : inliers [⟨0, 0, 0, 0⟩, ⟨1, 0, 1, 0⟩, ⟨2, 0, 9, 0⟩]
    ⟨fun _ => 0, List.map (resid2 .translation (fun _ => 0)) [⟨0, 0, 0, 0⟩, ⟨1, 0, 1, 0⟩, ⟨2, 0, 9, 0⟩], 4⟩ =
    [⟨0, 0, 0, 0⟩, ⟨1, 0, 1, 0⟩] := by
  rw [c227_kept]
  norm_num [resid2, transformed, List.filter]
example : Kind.size .translation < [(⟨0, 0, 0, 0⟩ : Tie), ⟨1, 0, 1, 0⟩, ⟨2, 0, 9, 0⟩].length ∧
    ∃ t ∈ [(⟨0, 0, 0, 0⟩ : Tie), ⟨1, 0, 1, 0⟩, ⟨2, 0, 9, 0⟩], 0 < resid2 .translation (fun _ => 0) t :=
  ⟨by decide, ⟨2, 0, 9, 0⟩, by simp, by norm_num [resid2, transformed]⟩
example : (transformFromDf two).2.2 = 2 := by
  rw [c227_refit two two (by decide) .translation .translation rfl _ rfl _ rfl]
  · rfl
  · symm
    rw [List.filter_eq_self]
    intro t ht
    rw [decide_eq_true_iff]
    have h9 : rmse2 (Kind.size .translation) (two.map (resid2 .translation (coefficients .translation two (fun _ => 0)))) =
        9999 ^ 2 := by simp [rmse2, two, Kind.size]
    rw [h9]
    have hx := c226_shift_violated two (fun _ => 0) (by decide) 3 0 (by norm_num [two]) (by norm_num [two])
      (Or.inl (by norm_num [abs_of_pos])) (by norm_num [two, abs_of_pos]) (by norm_num [two])
    unfold resid2
    rw [hx]
    simp only [two, List.mem_cons, List.not_mem_nil, or_false] at ht
    rcases ht with rfl | rfl <;> norm_num [Spec.shift, two]

/-! C228: matches are only found with the lower threshold -/

example : attempts (fun s _ => if s < 99 / 100 then 20 else 3) 10 (99 / 100) 3 = some (985 / 1000, 2) := by
  rw [c228_attempts _ _ (by decide)]
  decide +kernel
example : attempts (fun _ _ => 11) 10 (99 / 100) 3 = none := by
  rw [c228_attempts _ _ (by decide)]
  decide

/-! C222: an image with two columns and two rows -/

def im22 : Img := ⟨2, 2, [100, 200, 300, 400]⟩

theorem im22_valid : ∀ j i v, im22.valid (-9999) j i = some v → 0 ≤ v ∧ v ≤ 32767 := by
  intro j i v h
  unfold Img.valid Img.at at h
  split at h
  · cases h
  · rename_i w hw
    split at hw
    · rename_i hin
      have h1 : j = 0 ∨ j = 1 := by have := hin.2.1; have : (im22.nx : Int) = 2 := rfl; omega
      have h2 : i = 0 ∨ i = 1 := by have := hin.2.2.2; have : (im22.ny : Int) = 2 := rfl; omega
      have : w = 100 ∨ w = 200 ∨ w = 300 ∨ w = 400 := by
        rcases h1 with rfl | rfl <;> rcases h2 with rfl | rfl <;> simp [im22] at hw <;> omega
      split at h
      · cases h
      · have : w = v := by simpa using h
        omega
    · cases hw

example : registerPixel .affine (shiftBy (1 / 2) 0) im22 (-9999) 0 0 = .ok 150 := by decide +kernel
example : ∃ v, registerPixel .affine (shiftBy (1 / 2) 0) im22 (-9999) 0 0 = .ok v := by
  rw [c222_bilinear_partial (x := 1 / 2) (y := 0) (by rw [transformed_shift]; norm_num) (by norm_num) (by norm_num) im22_valid]
  exact ⟨_, rfl⟩
example : registerPixel .affine (shiftBy 0 0) ⟨1, 1, [-10]⟩ (-9999) 0 0 = .ok (-9) :=
  c222_identity_violated _ _ 0 0 (-10) (by decide) (by decide) (by decide)
example : ∃ v, registerPixel .affine (shiftBy (-(1 / 2)) 0) ⟨2, 1, [100, 0]⟩ (-9999) 0 0 = .ok v ∧
    v = ⌊((100 : Int) : ℚ) + 1 / 2 * (((100 : Int) : ℚ) - ((0 : Int) : ℚ)) + 1 / 2⌋ ∧ 100 < v :=
  c222_outside_violated ⟨2, 1, [100, 0]⟩ (-9999) 0 100 0 (1 / 2) (by norm_num) (by norm_num) (by decide) (by decide)
    (by decide) (by decide) (by norm_num) (by norm_num)
example : registerPixel .affine (shiftBy ((1 : Int) : ℚ) ((1 : Int) : ℚ)) im22 (-9999) 0 0 = .ok 400 := by
  rw [c222_whole im22 (-9999) 0 0 1 1 (fun v h => im22_valid _ _ v h)]
  decide

/-! C223 -/

example : (reconcile 2 (-9999) [-9999, 5, -9999, 5] [false, true, false, true]) = [true, false, false, true] := by decide
example : registerPixel .affine (shiftBy (-(7 / 5)) 0) im22 (-9999) 0 1 = .ok (-9999) ∧
    (reconcile 2 (-9999) [] ((registerQuality .affine (shiftBy (-(7 / 5)) 0) ⟨2, 2, [0, 0, 0, 0]⟩ 1).map
      (fun q => decide (q = 1))))[1 * 2]? = some false :=
  c223_off_violated im22 ⟨2, 2, [0, 0, 0, 0]⟩ (-9999) 1 (7 / 5) (by norm_num) (by norm_num) (by decide) (by decide) (by decide)
    (by decide) []
example : qualityPixel .affine (shiftBy (3 / 5) 0) ⟨2, 1, [4, 7]⟩ 1 0 0 = 7 := by
  rw [c223_nearest (x := 3 / 5) (y := 0) (a := 1) (b := 0) (by rw [transformed_shift]; norm_num) (by norm_num) (by norm_num)
    (by norm_num [abs_of_neg]) (by norm_num)]
  decide

/-! C224 -/

example : ∃ flags, coregister two [im22] ⟨2, 2, [0, 0, 0, 0]⟩ (-9999) 0 = .ok ([[100, 100, 100, 100]], flags) := by
  have := c224_few_points_violated two (by decide) [im22] ⟨2, 2, [0, 0, 0, 0]⟩ (-9999) 0
    (fun im him v h => by rw [List.mem_singleton.1 him] at h; exact im22_valid _ _ v h)
  exact this
example : transformed .affine (transformFromDm .affine two).1 0 0 = (0, 0) := by
  simp [transformFromDm, two, minTies, transformed]

/-! C229: a 7x7 image with a 3x3 filter -/

def im7 : List Int := List.range 49 |>.map (fun p => if p < 42 then -9999 else 500)

example : blurPixel im7 7 7 (-9999) (fun _ => 1) (2 * 1 + 1) 6 2 = .ok (-9999) :=
  c229_bottom_violated im7 7 7 (-9999) (fun _ => 1) 1 6 2 (by decide) (by decide) (by decide) (by decide) (by
    intro r hr c hc
    have hr : r < 6 := by omega
    interval_cases r <;> interval_cases c <;> decide)
example : blurPixel (List.replicate 49 500) 7 7 (-9999) (fun _ => 1) (2 * 1 + 1) 0 0 = .ok 500 := by decide +kernel
example : blurPixel (List.replicate 49 500) 7 7 (-9999) (fun _ => 1) (2 * 1 + 1) 2 2 =
    .ok ⌊total (List.replicate 49 500) 7 7 (-9999) (fun _ => 1) 1 2 2 /
      totalWeight (List.replicate 49 500) 7 7 (-9999) (fun _ => 1) 1 2 2 + 1 / 10000000000⌋ :=
  (c229_mean_partial (List.replicate 49 500) 7 7 (-9999) (fun _ => 1) 1 2 2 (by decide) (fun _ => by norm_num)
    (fun v hv => Or.inr (by rw [List.eq_of_mem_replicate hv]; decide)) (Or.inl (by decide))).2
    ⟨2, by decide, by decide, by decide, 2, by decide, by decide, by decide, by decide⟩
example : pyramidLayer [1, 2, 3, 4] 2 2 (-9999) (fun _ => 1) 1 2 = .ok [1] := by decide +kernel

/-! C230 -/

example : sam [1, 2] [2, 4] = (10, 100) := by decide +kernel
example : corr2 [1, 2] [2, 4] = (1, 1) := by decide +kernel

/-! C231 -/

example : baseImage "/b".toList ["2015.tif".toList, "2017.tif".toList, "2020.tif".toList] 2018 7 =
    some ("/b/2017.tif".toList, 6) := by decide +kernel
example : ∀ n ∈ ["2015.tif".toList, "2017.tif".toList, "2020.tif".toList], "/b".toList.length + n.length + 2 ≤ 1024 := by decide
example : Verif.Libc.fmtInt0 4 2018 <+: "2018.tif".toList ∧ Verif.Libc.fmtInt0 4 2018 <+: "2018.tif.aux.xml".toList := by
  constructor <;> decide +kernel

end Verif.Coreg.Examples
