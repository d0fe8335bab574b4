import Mathlib.Tactic.NormNum
import Mathlib.Data.List.Infix
import Mathlib.Data.List.TakeWhile
import Verif.Date.Lemmas
import Verif.Libc.Lemmas
import Verif.Modis.Model
import Verif.Qai.Lemmas
import Verif.Tsa.Names

/-!
# Properties C276 to C279: importing MODIS images
-/

namespace Verif.Modis

open Verif.Qai (Flag)
open Verif.Qai.Spec (value states)

/-! ## Specification -/

/-- `n` bits of a MODIS state word, from bit `i` on. -/
def Spec.field (w : BitVec 16) (i n : Nat) : Nat := w.toNat / 2 ^ i % 2 ^ n

/-- The state word reports a cloud: cloud state not clear (bits 0-1), cirrus (bits 8-9), or the
internal cloud algorithm (bit 10). -/
def Spec.Cloudy (w : BitVec 16) : Prop := Spec.field w 0 2 ≠ 0 ∨ Spec.field w 8 2 ≠ 0 ∨ Spec.field w 10 1 ≠ 0

/-- The bands that are checked: without number 5 for Aqua. -/
def Spec.Checked (aqua : Bool) (bands : List Int) (b : Nat) (x : Int) : Prop :=
  bands[b]? = some x ∧ ¬ (aqua = true ∧ b = 5)

/-- A leap year of the Gregorian calendar. -/
def Spec.Leap (y : Int) : Prop := y % 4 = 0 ∧ (y % 100 ≠ 0 ∨ y % 400 = 0)

instance (y : Int) : Decidable (Spec.Leap y) := by unfold Spec.Leap; infer_instance

/-- Day of the year in the Gregorian calendar. -/
def Spec.gregorian (y m d : Int) : Int := Date.Spec.dayOfYear m d + if Spec.Leap y ∧ m > 2 then 1 else 0

/-- The name of a MODIS file. -/
def Spec.fileName (aqua : Bool) (y doy h v : Int) (rest : List Char) : List Char :=
  (if aqua then "MYD".toList else "MOD".toList) ++ "09GA.A".toList ++ Libc.fmtInt0 4 y ++ Libc.fmtInt0 3 doy ++
    ".h".toList ++ Libc.fmtInt0 2 h ++ "v".toList ++ Libc.fmtInt0 2 v ++ rest ++ ".hdf".toList

/-! ## Lemmas -/

theorem modqa_eq (w : BitVec 16) (i n : Nat) (hn : n ≤ 16) : modqa w i n = Spec.field w i n := by
  unfold modqa Spec.field
  apply Nat.eq_of_testBit_eq
  intro k
  have h := Qai.readMask_getLsbD n k hn
  rw [BitVec.getLsbD] at h
  rw [BitVec.toNat_and, Nat.testBit_and, h, BitVec.toNat_ushiftRight, Nat.testBit_shiftRight, Nat.testBit_mod_two_pow,
    Nat.testBit_div_two_pow, Bool.and_comm, Nat.add_comm]

theorem value_set (f g : Flag) (v : BitVec 16) (x : Nat) (hx : x < states f) :
    value g (Qai.set f v x) = if g = f then x else value g v := by
  rw [← Qai.get_eq_value, Qai.get_set f g v x hx, Qai.get_eq_value]

theorem value_setIf (c : Bool) (f g : Flag) (v : BitVec 16) (x : Nat) (hx : x < states f) :
    value g (setIf c f x v) = if g = f ∧ c then x else value g v := by
  unfold setIf
  cases c
  · simp
  · simp [value_set f g v x hx]

theorem value_zero (f : Flag) : value f 0#16 = 0 := by cases f <;> decide

/-- The flags of the translated word. -/
theorem value_translate (w v : BitVec 16) (f : Flag) : value f (translate w v) =
    if f = .snw ∧ (Spec.field w 15 1 > 0 ∨ Spec.field w 12 1 > 0) then 1
    else if f = .cld ∧ Spec.field w 13 1 > 0 then 1
    else if f = .cld ∧ Spec.field w 10 1 > 0 then 2
    else if f = .cld ∧ Spec.field w 8 2 > 0 then 3
    else if f = .aod ∧ Spec.field w 6 2 > 2 then 2
    else if f = .aod ∧ Spec.field w 6 2 = 0 then 3
    else if f = .wtr ∧ Spec.field w 3 3 ≠ 1 then 1
    else if f = .shd ∧ Spec.field w 2 1 > 0 then 1
    else if f = .cld ∧ Spec.field w 0 2 > 0 then 2
    else value f v := by
  unfold translate
  dsimp only
  rw [value_setIf _ _ _ _ _ (by decide), value_setIf _ _ _ _ _ (by decide), value_setIf _ _ _ _ _ (by decide),
    value_setIf _ _ _ _ _ (by decide), value_setIf _ _ _ _ _ (by decide), value_setIf _ _ _ _ _ (by decide),
    value_setIf _ _ _ _ _ (by decide), value_setIf _ _ _ _ _ (by decide), value_setIf _ _ _ _ _ (by decide),
    value_setIf _ _ _ _ _ (by decide)]
  simp only [modqa_eq _ _ _ (show 2 ≤ 16 by decide), modqa_eq _ _ _ (show 1 ≤ 16 by decide),
    modqa_eq _ _ _ (show 3 ≤ 16 by decide), decide_eq_true_eq]
  cases f <;> simp only [reduceCtorEq, false_and, true_and, if_false]
  -- only snow is written twice with the same value
  by_cases h1 : Spec.field w 15 1 > 0
  · simp [h1]
  · simp [h1]

/-- Rating the bands changes at most the two flags. -/
theorem value_rate (aqua : Bool) (v : BitVec 16) (b : Nat) (l : List Int) (f : Flag) (h1 : f ≠ .sub) (h2 : f ≠ .sat) :
    value f (rate aqua v b l) = value f v := by
  induction l generalizing b with
  | nil => rfl
  | cons x l ih =>
    rw [rate]
    split
    · exact ih _
    · split
      · rw [value_set _ _ _ _ (by decide), if_neg h1]
      · split
        · rw [value_set _ _ _ _ (by decide), if_neg h2]
        · exact ih _

theorem value_convert (aqua : Bool) (nodata : Int) (bands : List Int) (w : BitVec 16) (f : Flag) (h1 : f ≠ .sub)
    (h2 : f ≠ .sat) : value f (convert aqua nodata bands w).2 =
      value f (translate w (setIf (decide (bands.headD 0 < -100)) .off 1 0#16)) := by
  unfold convert
  dsimp only
  rw [value_rate _ _ _ _ _ h1 h2]

/-! ## C276: quality bits -/

/-- C276: for every state word and every pixel, the flags for cloud shadow, snow, water, aerosol follow from
the documented fields of the word; the flags for sun, illumination, slope, water vapor are zero. -/
theorem c276_flags (aqua : Bool) (nodata : Int) (bands : List Int) (w : BitVec 16) :
    let q := (convert aqua nodata bands w).2
    (value .shd q = 1 ↔ Spec.field w 2 1 = 1) ∧
    (value .snw q = 1 ↔ Spec.field w 12 1 = 1 ∨ Spec.field w 15 1 = 1) ∧
    (value .wtr q = 0 ↔ Spec.field w 3 3 = 1) ∧
    (value .aod q = 3 ↔ Spec.field w 6 2 = 0) ∧ (value .aod q = 2 ↔ Spec.field w 6 2 = 3) ∧ value .aod q ≠ 1 ∧
    value .sun q = 0 ∧ value .ill q = 0 ∧ value .slp q = 0 ∧ value .wvp q = 0 := by
  have b1 : ∀ i, Spec.field w i 1 < 2 := fun i => Nat.mod_lt _ (by decide)
  have b2 : ∀ i, Spec.field w i 2 < 4 := fun i => Nat.mod_lt _ (by decide)
  have v0 : ∀ (c : Bool) (f : Flag), f ≠ .off → value f (setIf c .off 1 0#16) = 0 := by
    intro c f hf
    rw [value_setIf _ _ _ _ _ (by decide), if_neg (fun h => hf h.1), value_zero]
  dsimp only
  rw [value_convert _ _ _ _ .shd (by decide) (by decide), value_convert _ _ _ _ .snw (by decide) (by decide),
    value_convert _ _ _ _ .wtr (by decide) (by decide), value_convert _ _ _ _ .aod (by decide) (by decide),
    value_convert _ _ _ _ .sun (by decide) (by decide), value_convert _ _ _ _ .ill (by decide) (by decide),
    value_convert _ _ _ _ .slp (by decide) (by decide), value_convert _ _ _ _ .wvp (by decide) (by decide)]
  simp only [value_translate, reduceCtorEq, false_and, true_and, if_false, v0 _ _ (by decide : Flag.shd ≠ .off),
    v0 _ _ (by decide : Flag.snw ≠ .off), v0 _ _ (by decide : Flag.wtr ≠ .off), v0 _ _ (by decide : Flag.aod ≠ .off),
    v0 _ _ (by decide : Flag.sun ≠ .off), v0 _ _ (by decide : Flag.ill ≠ .off), v0 _ _ (by decide : Flag.slp ≠ .off),
    v0 _ _ (by decide : Flag.wvp ≠ .off), and_true]
  have c2 := b1 2; have c12 := b1 12; have c15 := b1 15; have c6 := b2 6
  generalize Spec.field w 2 1 = x2 at *
  generalize Spec.field w 12 1 = x12 at *
  generalize Spec.field w 15 1 = x15 at *
  generalize Spec.field w 6 2 = x6 at *
  generalize Spec.field w 3 3 = x3 at *
  refine ⟨?_, ?_, ?_, ?_, ?_, ?_⟩
  · split <;> omega
  · split <;> omega
  · split <;> omega
  · split
    · omega
    · split <;> omega
  · split
    · omega
    · split <;> omega
  · split
    · omega
    · split <;> omega

/-- The cloud field of the result. -/
theorem cloud_eq (aqua : Bool) (nodata : Int) (bands : List Int) (w : BitVec 16) :
    value .cld (convert aqua nodata bands w).2 =
    if Spec.field w 13 1 > 0 then 1 else if Spec.field w 10 1 > 0 then 2 else if Spec.field w 8 2 > 0 then 3
    else if Spec.field w 0 2 > 0 then 2 else 0 := by
  rw [value_convert _ _ _ _ .cld (by decide) (by decide), value_translate]
  simp only [reduceCtorEq, false_and, true_and, if_false]
  rw [value_setIf _ _ _ _ _ (by decide), value_zero]
  simp only [reduceCtorEq, false_and, if_false]

/-- C276: a pixel is clear of clouds exactly if the state word reports neither a cloud nor the neighbourhood
of a cloud (bit 13). -/
theorem c276_clear (aqua : Bool) (nodata : Int) (bands : List Int) (w : BitVec 16) :
    value .cld (convert aqua nodata bands w).2 = 0 ↔ ¬ Spec.Cloudy w ∧ Spec.field w 13 1 = 0 := by
  rw [cloud_eq]
  unfold Spec.Cloudy
  generalize Spec.field w 13 1 = a
  generalize Spec.field w 10 1 = b
  generalize Spec.field w 8 2 = c
  generalize Spec.field w 0 2 = d
  repeat' split
  all_goals omega

/-- C276, partial: a cloudy pixel is flagged as opaque cloud or cirrus if it is not next to a cloud. Missing:
cloudy pixels next to a cloud. -/
theorem c276_cloudy_partial (aqua : Bool) (nodata : Int) (bands : List Int) (w : BitVec 16) (hc : Spec.Cloudy w)
    (ha : Spec.field w 13 1 = 0) :
    value .cld (convert aqua nodata bands w).2 = 2 ∨ value .cld (convert aqua nodata bands w).2 = 3 := by
  rw [cloud_eq]
  unfold Spec.Cloudy at hc
  revert hc ha
  generalize Spec.field w 13 1 = a
  generalize Spec.field w 10 1 = b
  generalize Spec.field w 8 2 = c
  generalize Spec.field w 0 2 = d
  intro hc ha
  repeat' split
  all_goals omega

/-- C276, violated: every cloudy pixel whose state word also says that it is next to a cloud gets the state
of a cloud buffer only, so that it passes if only opaque clouds and cirrus are screened. -/
theorem c276_cloudy_violated (aqua : Bool) (nodata : Int) (bands : List Int) (w : BitVec 16) (_hc : Spec.Cloudy w)
    (ha : Spec.field w 13 1 = 1) : value .cld (convert aqua nodata bands w).2 = 1 := by
  rw [cloud_eq, if_pos (by omega)]

/-- A cloudy pixel on land next to a cloud. -/
example : Spec.Cloudy 8265#16 ∧ Spec.field 8265#16 13 1 = 1 ∧ Spec.field 8265#16 3 3 = 1 ∧
    (convert false (-9999) [500, 600, 700, 2000, 2500, 1500, 900] 8265#16).2 = 2#16 := by
  refine ⟨Or.inl ?_, ?_, ?_, ?_⟩ <;> decide

/-! ## C277: fill values -/

/-- C277, partial: if the first band is below -100, all bands become nodata and the pixel is flagged as such;
else all bands keep their values and the pixel is not flagged. Missing: fill values in other bands. -/
theorem c277_nodata_partial (aqua : Bool) (nodata : Int) (x : Int) (xs : List Int) (w : BitVec 16) :
    (x < -100 → (convert aqua nodata (x :: xs) w).1 = List.replicate (xs.length + 1) nodata ∧
      value .off (convert aqua nodata (x :: xs) w).2 = 1) ∧
    (-100 ≤ x → (convert aqua nodata (x :: xs) w).1 = x :: xs ∧ value .off (convert aqua nodata (x :: xs) w).2 = 0) := by
  have hv : value .off (convert aqua nodata (x :: xs) w).2 = if x < -100 then 1 else 0 := by
    rw [value_convert _ _ _ _ .off (by decide) (by decide), value_translate]
    simp only [reduceCtorEq, false_and, if_false, List.headD_cons]
    rw [value_setIf _ _ _ _ _ (by decide), value_zero]
    by_cases h : x < -100 <;> simp [h]
  rw [hv]
  unfold convert
  dsimp only
  constructor
  · intro h
    rw [List.headD_cons, if_pos h, if_pos h]
    refine ⟨?_, rfl⟩
    rw [List.map_const', List.length_cons]
  · intro h
    rw [List.headD_cons, if_neg (by omega), if_neg (by omega)]
    exact ⟨rfl, rfl⟩

theorem rate_fine (aqua : Bool) (v : BitVec 16) (b : Nat) (l : List Int)
    (h : ∀ i (x : Int), l[i]? = some x → ¬ (aqua = true ∧ b + i = 5) → 0 ≤ x ∧ x ≤ 10000) : rate aqua v b l = v := by
  induction l generalizing b with
  | nil => rfl
  | cons x l ih =>
    have ht : rate aqua v (b + 1) l = v := by
      refine ih (b + 1) fun i y hy hn => h (i + 1) y (by simpa using hy) ?_
      rwa [← Nat.add_assoc, Nat.add_right_comm]
    rw [rate]
    by_cases hb : b = 5 ∧ aqua = true
    · rw [if_pos hb, ht]
    · have := h 0 x rfl (by rw [Nat.add_zero]; tauto)
      rw [if_neg hb, if_neg (by omega), if_neg (by omega), ht]

/-- C277, violated: a fill value in another band stays in the image. For Aqua, a fill value in band 5 (SWIR1,
for which Aqua has broken detectors) leaves no trace in the quality bits either: the pixel is flagged
neither as nodata nor as below zero. -/
theorem c277_fill_violated (nodata fill : Int) (_hf : fill < -100) (b1 b2 b3 b4 b5 b7 : Int)
    (h1 : 0 ≤ b1 ∧ b1 ≤ 10000) (h2 : 0 ≤ b2 ∧ b2 ≤ 10000) (h3 : 0 ≤ b3 ∧ b3 ≤ 10000) (h4 : 0 ≤ b4 ∧ b4 ≤ 10000)
    (h5 : 0 ≤ b5 ∧ b5 ≤ 10000) (h7 : 0 ≤ b7 ∧ b7 ≤ 10000) (w : BitVec 16) :
    let r := convert true nodata [b1, b2, b3, b4, b5, fill, b7] w
    r.1[5]? = some fill ∧ value .off r.2 = 0 ∧ value .sub r.2 = 0 ∧ value .sat r.2 = 0 := by
  dsimp only
  have hoff := (c277_nodata_partial true nodata b1 [b2, b3, b4, b5, fill, b7] w).2 (by omega)
  have hr : (convert true nodata [b1, b2, b3, b4, b5, fill, b7] w).2 = translate w 0#16 := by
    unfold convert
    dsimp only
    rw [List.headD_cons, if_neg (by omega)]
    have hs : setIf (decide (b1 < -100)) .off 1 0#16 = 0#16 := by
      unfold setIf
      rw [if_neg (by simp; omega)]
    rw [hs]
    apply rate_fine
    intro i x hx hn
    match i with
    | 0 => simp at hx; omega
    | 1 => simp at hx; omega
    | 2 => simp at hx; omega
    | 3 => simp at hx; omega
    | 4 => simp at hx; omega
    | 5 => simp at hn
    | 6 => simp at hx; omega
    | i + 7 => simp at hx
  refine ⟨?_, hoff.2, ?_, ?_⟩
  · rw [hoff.1]; rfl
  · rw [hr, value_translate]
    simp only [reduceCtorEq, false_and, if_false, value_zero]
  · rw [hr, value_translate]
    simp only [reduceCtorEq, false_and, if_false, value_zero]

/-! ## C278: values outside of the valid range -/

/-- What rating the bands finds: the first value out of range decides. -/
theorem rate_cases (aqua : Bool) (v : BitVec 16) (b : Nat) (l : List Int) :
    (rate aqua v b l = v ∧ ∀ i (x : Int), l[i]? = some x → ¬ (aqua = true ∧ b + i = 5) → 0 ≤ x ∧ x ≤ 10000) ∨
    (∃ (i : Nat) (x : Int), l[i]? = some x ∧ ¬ (aqua = true ∧ b + i = 5) ∧
      (∀ k (y : Int), k < i → l[k]? = some y → ¬ (aqua = true ∧ b + k = 5) → 0 ≤ y ∧ y ≤ 10000) ∧
      ((x < 0 ∧ rate aqua v b l = Qai.set .sub v 1) ∨ (x > 10000 ∧ rate aqua v b l = Qai.set .sat v 1))) := by
  induction l generalizing b with
  | nil => exact Or.inl ⟨rfl, by simp⟩
  | cons x l ih =>
    have up : (0 ≤ x ∧ x ≤ 10000) ∨ (b = 5 ∧ aqua = true) → rate aqua v b (x :: l) = rate aqua v (b + 1) l →
        ((rate aqua v b (x :: l) = v ∧ ∀ i (y : Int), (x :: l)[i]? = some y → ¬ (aqua = true ∧ b + i = 5) →
            0 ≤ y ∧ y ≤ 10000) ∨
          (∃ (i : Nat) (y : Int), (x :: l)[i]? = some y ∧ ¬ (aqua = true ∧ b + i = 5) ∧
            (∀ k (z : Int), k < i → (x :: l)[k]? = some z → ¬ (aqua = true ∧ b + k = 5) → 0 ≤ z ∧ z ≤ 10000) ∧
            ((y < 0 ∧ rate aqua v b (x :: l) = Qai.set .sub v 1) ∨
              (y > 10000 ∧ rate aqua v b (x :: l) = Qai.set .sat v 1)))) := by
      intro hx e
      rw [e]
      have zero : ∀ y : Int, (x :: l)[0]? = some y → ¬ (aqua = true ∧ b + 0 = 5) → 0 ≤ y ∧ y ≤ 10000 := by
        intro y hy hn
        simp only [List.getElem?_cons_zero, Option.some.injEq] at hy
        subst hy
        rcases hx with hx | hx
        · exact hx
        · exact absurd ⟨hx.2, by omega⟩ hn
      rcases ih (b + 1) with ⟨h1, h2⟩ | ⟨i, y, h1, h2, h3, h4⟩
      · refine Or.inl ⟨h1, ?_⟩
        intro i y hy hn
        cases i with
        | zero => exact zero y hy hn
        | succ i => exact h2 i y (by simpa using hy) (fun h => hn ⟨h.1, by omega⟩)
      · refine Or.inr ⟨i + 1, y, by simpa using h1, fun h => h2 ⟨h.1, by omega⟩, ?_, h4⟩
        intro k z hk hz hn
        cases k with
        | zero => exact zero z hz hn
        | succ k => exact h3 k z (by omega) (by simpa using hz) (fun h => hn ⟨h.1, by omega⟩)
    by_cases hb : b = 5 ∧ aqua = true
    · exact up (Or.inr hb) (by rw [rate, if_pos hb])
    · by_cases h1 : x < 0
      · refine Or.inr ⟨0, x, rfl, fun h => hb ⟨by omega, h.1⟩, fun k y hk => by omega, Or.inl ⟨h1, ?_⟩⟩
        rw [rate, if_neg hb, if_pos h1]
      · by_cases h2 : x > 10000
        · refine Or.inr ⟨0, x, rfl, fun h => hb ⟨by omega, h.1⟩, fun k y hk => by omega, Or.inr ⟨h2, ?_⟩⟩
          rw [rate, if_neg hb, if_neg h1, if_pos h2]
        · exact up (Or.inl (by omega)) (by rw [rate, if_neg hb, if_neg h1, if_neg h2])

/-- C278, partial: a pixel with data is flagged as below zero or saturated exactly if one of the checked bands
is outside of 0 to 10000; it never gets both flags, and the first such band decides which. Missing: both
kinds in one pixel. -/
theorem c278_range_partial (aqua : Bool) (nodata : Int) (bands : List Int) (w : BitVec 16) (h : -100 ≤ bands.headD 0) :
    let q := (convert aqua nodata bands w).2
    (value .sub q = 1 ↔ ∃ b x, Spec.Checked aqua bands b x ∧ x < 0 ∧
      ∀ k < b, ∀ y, Spec.Checked aqua bands k y → 0 ≤ y ∧ y ≤ 10000) ∧
    (value .sat q = 1 ↔ ∃ b x, Spec.Checked aqua bands b x ∧ 10000 < x ∧
      ∀ k < b, ∀ y, Spec.Checked aqua bands k y → 0 ≤ y ∧ y ≤ 10000) := by
  dsimp only
  have e : (convert aqua nodata bands w).2 = rate aqua (translate w 0#16) 0 bands := by
    unfold convert
    dsimp only
    rw [if_neg (by omega)]
    have hs : setIf (decide (bands.headD 0 < -100)) .off 1 0#16 = 0#16 := by
      unfold setIf
      rw [if_neg (by simp only [decide_eq_true_eq]; omega)]
    rw [hs]
  rw [e]
  have t1 : value .sub (translate w 0#16) = 0 := by
    rw [value_translate]; simp only [reduceCtorEq, false_and, if_false, value_zero]
  have t2 : value .sat (translate w 0#16) = 0 := by
    rw [value_translate]; simp only [reduceCtorEq, false_and, if_false, value_zero]
  unfold Spec.Checked
  have first : ∀ {i j : Nat} {x y : Int}, bands[i]? = some x → bands[j]? = some y → ¬ (aqua = true ∧ i = 5) →
      ¬ (aqua = true ∧ j = 5) → ¬ (0 ≤ x ∧ x ≤ 10000) → ¬ (0 ≤ y ∧ y ≤ 10000) →
      (∀ k (z : Int), k < i → bands[k]? = some z → ¬ (aqua = true ∧ k = 5) → 0 ≤ z ∧ z ≤ 10000) →
      (∀ k < j, ∀ z, bands[k]? = some z ∧ ¬ (aqua = true ∧ k = 5) → 0 ≤ z ∧ z ≤ 10000) → x = y := by
    intro i j x y hi hj ni nj hx hy fi fj
    rcases Nat.lt_trichotomy i j with h | h | h
    · exact absurd (fj i h x ⟨hi, ni⟩) hx
    · subst h
      rw [hi] at hj
      injection hj
    · exact absurd (fi j y h hj nj) hy
  rcases rate_cases aqua (translate w 0#16) 0 bands with ⟨h1, h2⟩ | ⟨i, x, h1, h2, h3, h4⟩
  · simp only [Nat.zero_add] at h2
    rw [h1, t1, t2]
    refine ⟨⟨fun h => absurd h (by decide), ?_⟩, ⟨fun h => absurd h (by decide), ?_⟩⟩
    · rintro ⟨b, x, ⟨hb, hn⟩, hx, _⟩
      have := h2 b x hb hn
      omega
    · rintro ⟨b, x, ⟨hb, hn⟩, hx, _⟩
      have := h2 b x hb hn
      omega
  · simp only [Nat.zero_add] at h2 h3
    rcases h4 with ⟨hx, hr⟩ | ⟨hx, hr⟩
    · rw [hr, value_set _ _ _ _ (by decide), value_set _ _ _ _ (by decide), if_pos rfl, if_neg (by decide), t2]
      refine ⟨⟨fun _ => ⟨i, x, ⟨h1, h2⟩, hx, fun k hk y hy => h3 k y hk hy.1 hy.2⟩, fun _ => rfl⟩,
        ⟨fun h => absurd h (by decide), ?_⟩⟩
      rintro ⟨b, y, ⟨hb, hn⟩, hy, hf⟩
      have := first h1 hb h2 hn (by omega) (by omega) h3 hf
      omega
    · rw [hr, value_set _ _ _ _ (by decide), value_set _ _ _ _ (by decide), if_neg (by decide), if_pos rfl, t1]
      refine ⟨⟨fun h => absurd h (by decide), ?_⟩,
        ⟨fun _ => ⟨i, x, ⟨h1, h2⟩, hx, fun k hk y hy => h3 k y hk hy.1 hy.2⟩, fun _ => rfl⟩⟩
      rintro ⟨b, y, ⟨hb, hn⟩, hy, hf⟩
      have := first h1 hb h2 hn (by omega) (by omega) h3 hf
      omega

/-- C278, violated: a saturated band is not flagged if an earlier band is slightly below zero: checking the
bands stops at the first value out of range. -/
theorem c278_saturated_violated (nodata x y : Int) (rest : List Int) (w : BitVec 16) (hx : -100 ≤ x ∧ x < 0)
    (_hy : 10000 < y) : value .sat (convert false nodata (x :: y :: rest) w).2 = 0 := by
  have h := (c278_range_partial false nodata (x :: y :: rest) w (by rw [List.headD_cons]; omega)).2
  have hlt : value .sat (convert false nodata (x :: y :: rest) w).2 < 2 := Nat.mod_lt _ (by decide)
  by_contra hne
  obtain ⟨b, z, hb, hz, hf⟩ := h.1 (by omega)
  cases b with
  | zero =>
    have : x = z := by simpa [Spec.Checked] using hb
    omega
  | succ b =>
    have := hf 0 (by omega) x ⟨rfl, by simp⟩
    omega

example : (convert false (-9999) [-20, 600, 700, 2000, 2500, 1500, 900] 72#16).2 = 256#16 := by decide
example : (convert false (-9999) [20, 600, 700, 12000, 2500, 1500, 900] 72#16).2 = 512#16 := by decide

/-! ## C279: sensor, date, tile -/

theorem atoi_fmt (w : Nat) (hw : w ≠ 0) (v : Int) (h0 : 0 ≤ v) (h1 : v < 10 ^ w) : Libc.atoi (Libc.fmtInt0 w v) = v := by
  obtain ⟨e, hv, hl⟩ := Tsa.fmt_pad w v h0 h1
  have hd : ∀ c ∈ Libc.fmtInt0 w v, c.isDigit = true := by
    rw [e]; exact Libc.padDigits_isDigit _ _
  have hn : Libc.fmtInt0 w v ≠ [] := by
    intro h; rw [h] at hl; exact hw (by simpa using hl.symm)
  have := Libc.atoi_digits _ hd hn [] (by simp)
  rw [List.append_nil] at this
  rw [this, hv]
  omega

theorem mem_tails_any (p a b : List Char) : (a ++ p ++ b).tails.any (fun t => p.isPrefixOf t) = true := by
  rw [List.any_eq_true]
  refine ⟨p ++ b, ?_, by simp⟩
  rw [List.mem_tails]
  exact ⟨a, by simp⟩

theorem month_le (d : Int) (h : d ≤ 59) : (Date.doy2md d).1 ≤ 2 := by
  unfold Date.doy2md
  rw [if_neg (by omega), if_neg (by omega), if_neg (by omega), if_neg (by omega), if_neg (by omega), if_neg (by omega),
    if_neg (by omega), if_neg (by omega), if_neg (by omega), if_neg (by omega)]
  split <;> norm_num

/-- The month is determined by the day of the year. -/
theorem md_range (d : Int) (h : 1 ≤ d ∧ d ≤ 366) : (60 ≤ d → (Date.doy2md d).1 > 2) ∧ 0 ≤ (Date.doy2md d).1 ∧
    (Date.doy2md d).1 < 10 ^ 2 ∧ 0 ≤ (Date.doy2md d).2 ∧ (Date.doy2md d).2 < 10 ^ 2 := by
  have key : ∀ m e : Int, Date.doy2md d = (m, e) → (60 ≤ d → m > 2) → 0 ≤ m → m < 100 → 0 ≤ e → e < 100 →
      ((60 ≤ d → (Date.doy2md d).1 > 2) ∧ 0 ≤ (Date.doy2md d).1 ∧ (Date.doy2md d).1 < 10 ^ 2 ∧
        0 ≤ (Date.doy2md d).2 ∧ (Date.doy2md d).2 < 10 ^ 2) := by
    intro m e he h1 h2 h3 h4 h5
    rw [he]
    exact ⟨h1, h2, h3, h4, h5⟩
  by_cases h334 : d > 334
  · exact key 12 (d - 334) (by unfold Date.doy2md; rw [if_pos h334]) (by omega) (by omega) (by omega) (by omega) (by omega)
  by_cases h304 : d > 304
  · exact key 11 (d - 304) (by unfold Date.doy2md; rw [if_neg h334, if_pos h304]) (by omega) (by omega) (by omega) (by omega) (by omega)
  by_cases h273 : d > 273
  · exact key 10 (d - 273) (by unfold Date.doy2md; rw [if_neg h334, if_neg h304, if_pos h273]) (by omega) (by omega) (by omega) (by omega) (by omega)
  by_cases h243 : d > 243
  · exact key 9 (d - 243) (by unfold Date.doy2md; rw [if_neg h334, if_neg h304, if_neg h273, if_pos h243]) (by omega) (by omega) (by omega) (by omega) (by omega)
  by_cases h212 : d > 212
  · exact key 8 (d - 212) (by unfold Date.doy2md; rw [if_neg h334, if_neg h304, if_neg h273, if_neg h243, if_pos h212]) (by omega) (by omega) (by omega) (by omega) (by omega)
  by_cases h181 : d > 181
  · exact key 7 (d - 181) (by unfold Date.doy2md; rw [if_neg h334, if_neg h304, if_neg h273, if_neg h243, if_neg h212, if_pos h181]) (by omega) (by omega) (by omega) (by omega) (by omega)
  by_cases h151 : d > 151
  · exact key 6 (d - 151) (by unfold Date.doy2md; rw [if_neg h334, if_neg h304, if_neg h273, if_neg h243, if_neg h212, if_neg h181, if_pos h151]) (by omega) (by omega) (by omega) (by omega) (by omega)
  by_cases h120 : d > 120
  · exact key 5 (d - 120) (by unfold Date.doy2md; rw [if_neg h334, if_neg h304, if_neg h273, if_neg h243, if_neg h212,
      if_neg h181, if_neg h151, if_pos h120]) (by omega) (by omega) (by omega) (by omega) (by omega)
  by_cases h90 : d > 90
  · exact key 4 (d - 90) (by unfold Date.doy2md; rw [if_neg h334, if_neg h304, if_neg h273, if_neg h243, if_neg h212,
      if_neg h181, if_neg h151, if_neg h120, if_pos h90]) (by omega) (by omega) (by omega) (by omega) (by omega)
  by_cases h59 : d > 59
  · exact key 3 (d - 59) (by unfold Date.doy2md; rw [if_neg h334, if_neg h304, if_neg h273, if_neg h243, if_neg h212,
      if_neg h181, if_neg h151, if_neg h120, if_neg h90, if_pos h59]) (by omega) (by omega) (by omega) (by omega) (by omega)
  by_cases h31 : d > 31
  · exact key 2 (d - 31) (by unfold Date.doy2md; rw [if_neg h334, if_neg h304, if_neg h273, if_neg h243, if_neg h212,
      if_neg h181, if_neg h151, if_neg h120, if_neg h90, if_neg h59, if_pos h31]) (by omega) (by omega) (by omega) (by omega) (by omega)
  · exact key 1 d (by unfold Date.doy2md; rw [if_neg h334, if_neg h304, if_neg h273, if_neg h243, if_neg h212,
      if_neg h181, if_neg h151, if_neg h120, if_neg h90, if_neg h59, if_neg h31]) (by omega) (by omega) (by omega) (by omega) (by omega)

/-- Cutting a part of known place and length. -/
theorem cut (a b c : List Char) (n k : Nat) (ha : a.length = n) (hb : b.length = k) : ((a ++ (b ++ c)).drop n).take k = b := by
  rw [List.drop_left' ha, List.take_left' hb]

/-- Everything read from a well formed name. -/
theorem parse_eq (aqua : Bool) (y doy h v : Int) (rest : List Char) (hy : 0 ≤ y ∧ y ≤ 9999) (hd : 0 ≤ doy ∧ doy ≤ 999)
    (hh : 0 ≤ h ∧ h ≤ 99) (hv : 0 ≤ v ∧ v ≤ 99) : parseName (Spec.fileName aqua y doy h v rest) =
      some ⟨aqua, Date.setDate Date.initDate y (Date.doy2md doy).1 (Date.doy2md doy).2, h, v⟩ := by
  have ly := (Tsa.fmt_pad 4 y hy.1 (by omega)).2.2
  have ld := (Tsa.fmt_pad 3 doy hd.1 (by omega)).2.2
  have lh := (Tsa.fmt_pad 2 h hh.1 (by omega)).2.2
  have lv := (Tsa.fmt_pad 2 v hv.1 (by omega)).2.2
  have ay := atoi_fmt 4 (by decide) y hy.1 (by omega)
  have ad := atoi_fmt 3 (by decide) doy hd.1 (by omega)
  have ah := atoi_fmt 2 (by decide) h hh.1 (by omega)
  have av := atoi_fmt 2 (by decide) v hv.1 (by omega)
  unfold parseName Spec.fileName
  generalize Libc.fmtInt0 4 y = sy at *
  generalize Libc.fmtInt0 3 doy = sd at *
  generalize Libc.fmtInt0 2 h = sh at *
  generalize Libc.fmtInt0 2 v = sv at *
  generalize hS : (if aqua = true then "MYD".toList else "MOD".toList) = S
  have lS : S.length = 3 := by rw [← hS]; cases aqua <;> rfl
  have e1 : (S ++ "09GA.A".toList ++ sy ++ sd ++ ".h".toList ++ sh ++ "v".toList ++ sv ++ rest ++ ".hdf".toList).tails.any
      (fun t => "09GA".toList.isPrefixOf t) = true := by
    have := mem_tails_any "09GA".toList S
      (".A".toList ++ sy ++ sd ++ ".h".toList ++ sh ++ "v".toList ++ sv ++ rest ++ ".hdf".toList)
    simp only [List.append_assoc] at this ⊢
    exact this
  have e2 : (".hdf".toList).isSuffixOf
      (S ++ "09GA.A".toList ++ sy ++ sd ++ ".h".toList ++ sh ++ "v".toList ++ sv ++ rest ++ ".hdf".toList) = true := by
    rw [List.isSuffixOf_iff_suffix]
    exact List.suffix_append _ _
  rw [e1, e2]
  simp only [Bool.not_true, Bool.false_eq_true, if_false]
  have c1 : ((S ++ "09GA.A".toList ++ sy ++ sd ++ ".h".toList ++ sh ++ "v".toList ++ sv ++ rest ++
      ".hdf".toList).drop 9).take 4 = sy := by
    have := cut (S ++ "09GA.A".toList) sy (sd ++ ".h".toList ++ sh ++ "v".toList ++ sv ++ rest ++ ".hdf".toList) 9 4
      (by rw [List.length_append, lS]; rfl) ly
    simp only [List.append_assoc] at this ⊢
    exact this
  have c2 : ((S ++ "09GA.A".toList ++ sy ++ sd ++ ".h".toList ++ sh ++ "v".toList ++ sv ++ rest ++
      ".hdf".toList).drop 13).take 3 = sd := by
    have := cut (S ++ "09GA.A".toList ++ sy) sd (".h".toList ++ sh ++ "v".toList ++ sv ++ rest ++ ".hdf".toList) 13 3
      (by rw [List.length_append, List.length_append, lS, ly]; rfl) ld
    simp only [List.append_assoc] at this ⊢
    exact this
  have c3 : ((S ++ "09GA.A".toList ++ sy ++ sd ++ ".h".toList ++ sh ++ "v".toList ++ sv ++ rest ++
      ".hdf".toList).drop 18).take 2 = sh := by
    have := cut (S ++ "09GA.A".toList ++ sy ++ sd ++ ".h".toList) sh ("v".toList ++ sv ++ rest ++ ".hdf".toList) 18 2
      (by rw [List.length_append, List.length_append, List.length_append, List.length_append, lS, ly, ld]; rfl) lh
    simp only [List.append_assoc] at this ⊢
    exact this
  have c4 : ((S ++ "09GA.A".toList ++ sy ++ sd ++ ".h".toList ++ sh ++ "v".toList ++ sv ++ rest ++
      ".hdf".toList).drop 21).take 2 = sv := by
    have := cut (S ++ "09GA.A".toList ++ sy ++ sd ++ ".h".toList ++ sh ++ "v".toList) sv (rest ++ ".hdf".toList) 21 2
      (by rw [List.length_append, List.length_append, List.length_append, List.length_append, List.length_append,
            List.length_append, lS, ly, ld, lh]; rfl) lv
    simp only [List.append_assoc] at this ⊢
    exact this
  have c5 : (S ++ "09GA.A".toList ++ sy ++ sd ++ ".h".toList ++ sh ++ "v".toList ++ sv ++ rest ++
      ".hdf".toList).take 3 = S := by
    have := List.take_left' (l₁ := S) (l₂ := "09GA.A".toList ++ sy ++ sd ++ ".h".toList ++ sh ++ "v".toList ++ sv ++ rest ++
      ".hdf".toList) lS
    simp only [List.append_assoc] at this ⊢
    exact this
  rw [c1, c2, c3, c4, c5, ay, ad, ah, av, ← hS]
  cases aqua
  · rfl
  · rfl

/-- C279, partial: for every well formed name, platform and tile are those of the name, and the year too. The
date is the day of the name if the year is not a leap year, or if the day is in January or February (up to
February 28). Missing: the other days of leap years. -/
theorem c279_name_partial (aqua : Bool) (y doy h v : Int) (rest : List Char) (hy : 0 ≤ y ∧ y ≤ 9999) (hd : 1 ≤ doy)
    (hl : doy ≤ 59 ∨ (¬ Spec.Leap y ∧ doy ≤ 365)) (hh : 0 ≤ h ∧ h ≤ 99) (hv : 0 ≤ v ∧ v ≤ 99) :
    ∃ o, parseName (Spec.fileName aqua y doy h v rest) = some o ∧ o.aqua = aqua ∧ o.tx = h ∧ o.ty = v ∧
      o.date.year = y ∧ Date.Spec.ValidMD o.date.month o.date.day ∧
      Spec.gregorian y o.date.month o.date.day = doy := by
  refine ⟨_, parse_eq aqua y doy h v rest hy (by omega) hh hv, rfl, rfl, rfl, rfl, ?_, ?_⟩
  · exact Date.doy2md_valid hd (by omega)
  · show Date.Spec.dayOfYear (Date.doy2md doy).1 (Date.doy2md doy).2 + _ = doy
    rw [Date.dayOfYear_doy2md hd, if_neg, Int.add_zero]
    rintro ⟨hL, hm⟩
    have h59 : doy ≤ 59 := by
      rcases hl with hl | hl
      · exact hl
      · exact absurd hL hl.1
    have := month_le doy h59
    have hm' : (Date.doy2md doy).1 > 2 := hm
    omega

/-- C279, violated: in leap years, each image from February 29 on is filed under the date of the next day; the
image of December 31 gets December 32. -/
theorem c279_leap_violated (aqua : Bool) (y doy h v : Int) (rest : List Char) (hy : 0 ≤ y ∧ y ≤ 9999) (hL : Spec.Leap y)
    (hd : 60 ≤ doy ∧ doy ≤ 366) (hh : 0 ≤ h ∧ h ≤ 99) (hv : 0 ≤ v ∧ v ≤ 99) :
    ∃ o, parseName (Spec.fileName aqua y doy h v rest) = some o ∧
      Spec.gregorian y o.date.month o.date.day = doy + 1 ∧ (doy = 366 → o.date.month = 12 ∧ o.date.day = 32) := by
  refine ⟨_, parse_eq aqua y doy h v rest hy (by omega) hh hv, ?_, ?_⟩
  · show Date.Spec.dayOfYear (Date.doy2md doy).1 (Date.doy2md doy).2 + _ = doy + 1
    rw [Date.dayOfYear_doy2md (by omega), if_pos]
    refine ⟨hL, ?_⟩
    exact (md_range doy ⟨by omega, hd.2⟩).1 hd.1
  · rintro rfl
    exact ⟨rfl, rfl⟩

/-- C279: files for which the program does not end are of the product 09GA, have the extension .hdf, and begin
with MOD or MYD. -/
theorem c279_refused (name : List Char) (o : Out) (h : parseName name = some o) :
    "09GA".toList <:+: name ∧ ".hdf".toList <:+ name ∧
      (("MOD".toList <+: name ∧ o.sensor = "MOD01".toList) ∨ ("MYD".toList <+: name ∧ o.sensor = "MOD02".toList)) := by
  have pre : ∀ p : List Char, p.length = 3 → name.take 3 = p → p <+: name := by
    intro p _ e
    rw [← e]
    exact List.take_prefix _ _
  unfold parseName at h
  split at h
  · cases h
  · rename_i h1
    split at h
    · cases h
    · rename_i h2
      refine ⟨?_, ?_, ?_⟩
      · have h1' : (name.tails.any (fun t => "09GA".toList.isPrefixOf t)) = true := by simpa using h1
        rw [List.any_eq_true] at h1'
        obtain ⟨t, ht, hp⟩ := h1'
        rw [List.mem_tails] at ht
        rw [List.isPrefixOf_iff_prefix] at hp
        exact hp.isInfix.trans ht.isInfix
      · have h2' : (".hdf".toList).isSuffixOf name = true := by simpa using h2
        exact List.isSuffixOf_iff_suffix.1 h2'
      · dsimp only at h
        split at h
        · rename_i h3
          injection h with h
          exact Or.inl ⟨pre _ rfl h3, by rw [← h]; rfl⟩
        · split at h
          · rename_i h3
            injection h with h
            exact Or.inr ⟨pre _ rfl h3, by rw [← h]; rfl⟩
          · cases h

theorem setDate_fields (d : Date.DateT) (y m k : Int) :
    (Date.setDate d y m k).year = y ∧ (Date.setDate d y m k).month = m ∧ (Date.setDate d y m k).day = k := ⟨rfl, rfl, rfl⟩

theorem sensor_length (o : Out) : o.sensor.length = 5 := by
  unfold Out.sensor
  cases o.aqua <;> rfl

theorem sensor_inj (o o' : Out) (h : o.sensor = o'.sensor) : o.aqua = o'.aqua := by
  unfold Out.sensor at h
  have ne : "MOD01".toList ≠ "MOD02".toList := by decide
  cases h1 : o.aqua <;> cases h2 : o'.aqua
  · rfl
  · rw [h1, h2, if_neg (by decide), if_pos rfl] at h
    exact absurd h ne
  · rw [h1, h2, if_pos rfl, if_neg (by decide)] at h
    exact absurd h.symm ne
  · rfl

/-- C279: acquisitions that differ in platform, day or tile are written to different files. -/
theorem c279_distinct (aqua aqua' : Bool) (y doy h v y' doy' h' v' : Int) (rest rest' product : List Char)
    (hy : 0 ≤ y ∧ y ≤ 9999) (hd : 1 ≤ doy ∧ doy ≤ 366) (hh : 0 ≤ h ∧ h ≤ 99) (hv : 0 ≤ v ∧ v ≤ 99)
    (hy' : 0 ≤ y' ∧ y' ≤ 9999) (hd' : 1 ≤ doy' ∧ doy' ≤ 366) (hh' : 0 ≤ h' ∧ h' ≤ 99) (hv' : 0 ≤ v' ∧ v' ≤ 99)
    (o o' : Out) (ho : parseName (Spec.fileName aqua y doy h v rest) = some o)
    (ho' : parseName (Spec.fileName aqua' y' doy' h' v' rest') = some o') (he : o.path product = o'.path product) :
    aqua = aqua' ∧ y = y' ∧ doy = doy' ∧ h = h' ∧ v = v' := by
  rw [parse_eq aqua y doy h v rest hy (by omega) hh hv] at ho
  rw [parse_eq aqua' y' doy' h' v' rest' hy' (by omega) hh' hv'] at ho'
  injection ho with ho
  injection ho' with ho'
  obtain ⟨_, m1, m2, m3, m4⟩ := md_range doy hd
  obtain ⟨_, n1, n2, n3, n4⟩ := md_range doy' hd'
  have hdate := setDate_fields Date.initDate y (Date.doy2md doy).1 (Date.doy2md doy).2
  have hdate' := setDate_fields Date.initDate y' (Date.doy2md doy').1 (Date.doy2md doy').2
  rw [← ho, ← ho'] at he
  generalize Date.setDate Date.initDate y (Date.doy2md doy).1 (Date.doy2md doy).2 = D at *
  generalize Date.setDate Date.initDate y' (Date.doy2md doy').1 (Date.doy2md doy').2 = D' at *
  unfold Out.path at he
  dsimp only at he
  rw [hdate.1, hdate.2.1, hdate.2.2, hdate'.1, hdate'.2.1, hdate'.2.2] at he
  simp only [List.append_assoc, List.cons_append] at he
  injection he with _ he
  have L : ∀ (w : Nat) (x : Int), 0 ≤ x → x < 10 ^ w → (Libc.fmtInt0 w x).length = w := fun w x a b =>
    (Tsa.fmt_pad w x a b).2.2
  obtain ⟨eh, he⟩ := List.append_inj he (by rw [L 4 h (by omega) (by omega), L 4 h' (by omega) (by omega)])
  injection he with _ he
  injection he with _ he
  obtain ⟨ev, he⟩ := List.append_inj he (by rw [L 4 v (by omega) (by omega), L 4 v' (by omega) (by omega)])
  injection he with _ he
  obtain ⟨ey, he⟩ := List.append_inj he (by rw [L 4 y (by omega) (by omega), L 4 y' (by omega) (by omega)])
  obtain ⟨em, he⟩ := List.append_inj he (by rw [L 2 _ m1 m2, L 2 _ n1 n2])
  obtain ⟨ed, he⟩ := List.append_inj he (by rw [L 2 _ m3 m4, L 2 _ n3 n4])
  have he := List.append_cancel_left he
  have qm := Tsa.fmt_inj 2 _ _ m1 m2 n1 n2 em
  have qd := Tsa.fmt_inj 2 _ _ m3 m4 n3 n4 ed
  refine ⟨?_, Tsa.fmt_inj 4 _ _ (by omega) (by omega) (by omega) (by omega) ey, ?_,
    Tsa.fmt_inj 4 _ _ (by omega) (by omega) (by omega) (by omega) eh,
    Tsa.fmt_inj 4 _ _ (by omega) (by omega) (by omega) (by omega) ev⟩
  · exact sensor_inj _ _ (List.append_inj he (by rw [sensor_length, sensor_length])).1
  · rw [← Date.dayOfYear_doy2md hd.1, ← Date.dayOfYear_doy2md hd'.1, qm, qd]

set_option maxRecDepth 10000 in
/-- June 1, 2020, day 153 of a leap year. -/
example : Spec.Leap 2020 ∧ Spec.fileName true 2020 153 18 4 ".061.2020155042216".toList =
      "MYD09GA.A2020153.h18v04.061.2020155042216.hdf".toList ∧
    (parseName "MYD09GA.A2020153.h18v04.061.2020155042216.hdf".toList).map (fun o => o.path "BOA".toList) =
      some "X0018_Y0004/20200602_LEVEL2_MOD02_BOA".toList := by
  refine ⟨?_, ?_, ?_⟩ <;> decide +kernel

end Verif.Modis
