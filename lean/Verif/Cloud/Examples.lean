import Verif.Cloud.Final
import Verif.Cloud.Grow
import Verif.Cloud.Shadow
import Verif.Cloud.Class

/-!
# Cases that meet the hypotheses of the theorems on clouds
-/

namespace Verif.Cloud

open Verif.Str (Out)
open Verif.Recon (Px)
open Verif.Qai.Spec (value)

/-- The writes in the order of one thread. -/
def plain (nx ny : Nat) : Buffers :=
  { cloud := 2, cirrus := 1, shadow := 1
    order := fun img r => match Buffer.writes img nx ny r with
      | some (.ok ws) => ws
      | _ => [] }

theorem plain_orders (nx ny : Nat) : Orders nx ny (plain nx ny) := by
  intro img r ws h
  simp [plain, h]

/-- C125: an image of 9 times 9 pixels with one cloud in the middle: confident in the middle, buffered next to it, cirrus further away. -/
example : ∃ out, finalize 9 9 (plain 9 9) (some fun p => if p = 64 then 2000 else 0) (fun _ => 1 / 2) (fun p => p == 40) (fun _ => false) (fun _ => 0) = .ok out ∧
    value .cld (out 40) = 2 ∧ value .cld (out 42) = 1 ∧ value .cld (out 64) = 3 ∧ value .cld (out 0) = 0 := by
  obtain ⟨out, e, h⟩ := c125_flags_partial 9 9 (plain 9 9) (fun p => if p = 64 then 2000 else 0) (fun _ => 1 / 2) (fun p => p == 40) (fun _ => false) (fun _ => 0)
    (plain_orders 9 9) (by simp [plain]) (by simp [plain]) (by simp [plain]) (fun p => p == 64) (by
      intro p
      by_cases hp : p = 64
      · subst hp
        simp only [beq_self_eq_true, if_true, Spec.Cirrus, true_iff]
        refine ⟨by decide +kernel, by decide +kernel, by norm_num, by norm_num⟩
      · simp [hp, Spec.Cirrus])
  refine ⟨out, e, ?_, ?_, ?_, ?_⟩
  · exact (h 4 4 (by norm_num) (by norm_num) (by decide +kernel) (by decide +kernel)).1 (by decide +kernel) (by simp [Buffer.Spec.Inside, plain]) (by simp [Buffer.Spec.Inside, plain])
  · exact (h 4 6 (by norm_num) (by norm_num) (by decide +kernel) (by decide +kernel)).2.1 (by decide +kernel)
      ⟨4, 4, by simp [Buffer.Spec.Inside, plain], by simp [Buffer.Spec.Inside, plain], by decide +kernel, by simp [Buffer.Spec.dist2, plain]⟩
  · refine (h 7 1 (by norm_num) (by norm_num) (by decide +kernel) (by decide +kernel)).2.2.1 ?_
      ⟨7, 1, by simp [Buffer.Spec.Inside, plain], by simp [Buffer.Spec.Inside, plain], by decide +kernel, by simp [Buffer.Spec.dist2, plain]⟩
    rintro ⟨i', j', hi, hj, hp, hd⟩
    have : i' = 4 ∧ j' = 4 := by
      simp only [Buffer.Spec.px, beq_iff_eq] at hp
      omega
    obtain ⟨rfl, rfl⟩ := this
    simp [Buffer.Spec.dist2, plain] at hd
  · refine (h 0 0 (by norm_num) (by norm_num) (by decide +kernel) (by decide +kernel)).2.2.2.1 ?_ ?_
    · rintro ⟨i', j', hi, hj, hp, hd⟩
      have : i' = 4 ∧ j' = 4 := by
        simp only [Buffer.Spec.px, beq_iff_eq] at hp
        omega
      obtain ⟨rfl, rfl⟩ := this
      simp [Buffer.Spec.dist2, plain] at hd
    · rintro ⟨i', j', hi, hj, hp, hd⟩
      have : i' = 7 ∧ j' = 1 := by
        simp only [Buffer.Spec.px, beq_iff_eq] at hp
        omega
      obtain ⟨rfl, rfl⟩ := this
      simp [Buffer.Spec.dist2, plain] at hd

/-- C125, violated: the only cloud is at the edge. -/
example : ∀ i j : Nat, i < 9 → j < 9 → Buffer.Spec.px 9 (fun p => p == 1) i j = true → ¬ (Buffer.Spec.Inside 9 2 i ∧ Buffer.Spec.Inside 9 2 j) := by
  intro i j hi hj hp
  simp only [Buffer.Spec.px, beq_iff_eq] at hp
  simp only [Buffer.Spec.Inside]
  omega

/-- C125: cover of an image with four pixels: one is not valid, one of the others is a cloud. -/
example : cover 4 3 (fun p => if p = 0 then 1 else if p = 1 then 4 else 0) = 100 / 3 := by decide +kernel
example : (3 : Nat) = ((List.range 4).filter fun p : Nat => decide (value .off ((fun p : Int => if p = 0 then (1 : BitVec 16) else if p = 1 then 4 else 0) p) = 0)).length := by
  decide +kernel

/-- C128: the hypotheses of the theorems: 81 valid pixels, half of them clear. -/
example : ∃ s : Stages, s.npix = ((List.range (9 * 9)).filter fun p : Nat => decide (value .off ((fun _ : Int => (0 : BitVec 16)) p) = 0)).length ∧ 0 < s.npix ∧
    (s.nclear : ℚ) / s.npix > 1 / 1000 ∧ (s.ncloud : ℚ) / s.npix ≤ 75 / 100 * (8 / 10) :=
  ⟨⟨81, 40, 41, fun _ => false, fun _ => false, fun _ => false⟩, by decide +kernel, by norm_num, by norm_num, by norm_num⟩
example : ∃ s : Stages, 0 < s.npix ∧ (s.nclear : ℚ) / s.npix > 1 / 1000 ∧ (s.ncloud : ℚ) / s.npix > (75 : ℚ) / 100 * (8 / 10) ∧ (75 : ℚ) < 100 :=
  ⟨⟨81, 20, 61, fun _ => false, fun _ => false, fun _ => false⟩, by norm_num, by norm_num, by norm_num, by norm_num⟩

/-- C127: three cells in a row: the seed on the left, the cell in the middle is added, the cell on the right is not. -/
example : ∃ clouds, region 3 1 (fun p => if p.2 = 1 then .num (-3 / 10) else .num 0) (fun p => p == (0, 0)) 5 = some (.ok clouds) ∧
    clouds (0, 0) = true ∧ clouds (0, 1) = true ∧ clouds (0, 2) = false := by
  obtain ⟨clouds, e, h⟩ := c127_region 3 1 (by norm_num) (by norm_num) (by norm_num) (by norm_num) (fun p => if p.2 = 1 then .num (-3 / 10) else .num 0)
    (fun p => p == (0, 0)) (by intro p hp; simp only [beq_iff_eq] at hp; subst hp; simp [Recon.Spec.Inside]) 5 (by norm_num)
  have h0 : Spec.Grown 3 1 (fun p => (p == ((0, 0) : Px)) = true) (fun p => ∃ c, (if p.2 = 1 then Index.num (-3 / 10) else .num 0) = .num c ∧ -1 ≤ c ∧ c < -1 / 4) (0, 0) :=
    .seed _ (by simp [Recon.Spec.Inside]) (by simp)
  refine ⟨clouds, e, (h _).2 h0, (h _).2 (.step _ _ h0 (by simp [Recon.Spec.Adj]) (by simp [Recon.Spec.Inside]) ⟨-3 / 10, by norm_num, by norm_num, by norm_num⟩), ?_⟩
  rw [Bool.eq_false_iff]
  intro hc
  have := (h _).1 hc
  cases this with
  | seed _ _ hs => simp at hs
  | step p _ _ _ _ hm =>
    obtain ⟨c, hc, _, hl⟩ := hm
    simp only [show ((2 : Int) = 1) = False by simp, if_false, Index.num.injEq] at hc
    rw [← hc] at hl
    norm_num at hl

/-- C127: a core, and a cell spoiled by its neighbour. -/
example : core 2 1 (fun _ => .num (-6 / 10)) (fun _ => 0) (0, 0) = true := by decide +kernel
example : core 2 1 (fun p => if p.2 = 0 then .num (-6 / 10) else .num 0) (fun _ => 0) (0, 0) = false := by decide +kernel
example : restore 2 2 (fun p => p == (1, 0)) (fun _ _ => false) (fun _ _ => true) 3 1 = true := by decide +kernel
example : restore 2 2 (fun p => p == (1, 0)) (fun _ _ => false) (fun _ _ => true) 3 2 = false := by decide +kernel
/-- C127: with 4 times 4 pixels the writes are inside; with 3 rows or columns they are not, or wrong. -/
example : ratios 4 4 (fun _ _ => false) (fun _ _ => true) = .ok [0, 1, 2, 3] := by decide +kernel
example : ratios 4 3 (fun _ _ => false) (fun _ _ => true) = .ub := c127_rows_violated 4 3 rfl _ _ 0 (by norm_num) rfl rfl
example : (2 : Nat) * (5 / 2) + 0 ∈ written 5 4 (fun _ _ => false) (fun _ _ => true) := c127_columns_violated 5 4 rfl _ _ 1 (by norm_num) rfl rfl

/-- C126: with one thread the depth is that of the second band; with two threads it is the smaller one. -/
example : combine (schedule 1 (fun _ => 900, fun _ => 700) (fun _ => 900, fun _ => 400)) (0, 0) = 500 ∧
    combine (schedule 2 (fun _ => 900, fun _ => 700) (fun _ => 900, fun _ => 400)) (0, 0) = 200 := by decide +kernel
/-- C126: the hypotheses are met by an image with a dark pixel in the middle (3 times 3 pixels), which is filled up to the level of the edge. -/
example : (Recon.reconstruct 3 3 (background 3 3 (fun _ => 200) (fun _ => false) (fun _ => false) 700)
    (fun p => if Recon.inside 3 3 p && !decide (p = (1, 1)) then 700 else 32767) 20).isSome = true := by decide +kernel

/-- C130: an object of one pixel; the shadow is found two columns away. -/
def row : Scene :=
  { nx := 5, ny := 1, label := fun p => if p.2 = 0 then 1 else 0, dark := fun p => p.2 == 2, value := fun _ => 700, position := fun h p => (p.1, p.2 + ⌊h⌋) }
example : objectShadow row 1 (fun _ => 0) [(0, 0)] [1, 2, 3] = [(0, 2)] := by decide +kernel
example : members 4 4 30 (fun p => if p.1 = 1 then 7 else 0) 7 = [(1, 0), (1, 1), (1, 2), (1, 3)] := by decide +kernel
/-- C130: the match of the example is 700/750, with one pixel outside of the object. -/
example : matchAt row 1 (fun _ => 0) [(0, 0)] 2 = 700 / 750 := by decide +kernel
/-- C130, violated: with 10 m pixels, the same object has no pixels that are used. -/
example : members 4 4 10 (fun p => if p.1 = 1 then 7 else 0) 7 = [] := by decide +kernel
example : objectShadow { row with ny := 4 } 7 (fun _ => 0) (members 5 4 10 (fun p => if p.1 = 1 then 7 else 0) 7) [1, 2, 3] = [] :=
  c130_small_violated { row with ny := 4 } 10 (by norm_num) (by norm_num) _ 7 (by
    intro p hp
    by_cases h : p.1 = 1
    · rw [h]; decide +kernel
    · simp [h] at hp) _ _

/-- C129: a cloud in one corner; and no cloud at all. -/
example : ∃ b a, b < 3 ∧ a < 4 ∧ (value .cld ((fun y x => if y = 0 ∧ x = 0 then (4 : BitVec 16) else 0 : Nat → Nat → BitVec 16) b a) ≠ 0 ∨
    value .shd ((fun y x => if y = 0 ∧ x = 0 then (4 : BitVec 16) else 0 : Nat → Nat → BitVec 16) b a) ≠ 0 ∨
    value .snw ((fun y x => if y = 0 ∧ x = 0 then (4 : BitVec 16) else 0 : Nat → Nat → BitVec 16) b a) ≠ 0) :=
  ⟨0, 0, by norm_num, by norm_num, Or.inl (by decide +kernel)⟩
example : distance 4 3 30 (-9999) (fun _ _ => 0) 1 = .ok [210, 210, 210, 210] := by decide +kernel

/-- C131: a cloud, snow, water, and a clear pixel. -/
def cloudPixel : Pixel := ⟨3000, 2900, 2800, 3200, 2500, 1800, some 27000, 0, false⟩
def snowPixel : Pixel := ⟨8000, 8200, 7900, 7000, 900, 600, some 26500, 0, false⟩
def waterPixel : Pixel := ⟨700, 500, 300, 100, 50, 20, some 28800, 0, false⟩
def landPixel : Pixel := ⟨600, 800, 700, 3200, 2200, 1500, some 29800, 0, false⟩
example : cloudPixel.potential = true ∧ landPixel.potential = false ∧ snowPixel.snow = true ∧ waterPixel.water = true ∧ landPixel.snow = false := by decide +kernel
example : IsNd cloudPixel.nir cloudPixel.red (1 / 15) ∧ IsNd 0 0 (1 / 100) := by
  constructor
  · simp [IsNd, cloudPixel]; norm_num
  · simp [IsNd]
example : counts [(cloudPixel, false), (snowPixel, true), (waterPixel, false), (landPixel, false)] = (4, 2, 1) := by decide +kernel
example : landPixel.variability = .ok 3589 := by decide +kernel
example : { landPixel with blue := 0, green := 0, red := 0 }.variability = .ub := c131_dark_violated _ rfl rfl rfl
example : { waterPixel with red := -70 }.variability = .ub := c131_negative_violated _ rfl (by decide +kernel) (by decide +kernel)
example : cloudy true false false true 28000 (3 / 4) 0 (1 / 2) (1 / 2) 27000 = true := by decide +kernel

end Verif.Cloud
