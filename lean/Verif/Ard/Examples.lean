import Verif.Ard.Reading
import Verif.Ard.Psf

/-!
# Cases that meet the hypotheses of the theorems on Level 2 data
-/

namespace Verif.Ard

open Verif.Str (Out)
open Verif.Ard.Spec

instance (m d : Int) : Decidable (Date.Spec.ValidMD m d) := by unfold Date.Spec.ValidMD; infer_instance

/-- An image of Sentinel-2A. -/
def s2a : Name := ⟨2018, 8, 23, "LEVEL2".toList, "SEN2A".toList, "BOA".toList, "tif".toList⟩

/-- An image of Landsat 7, after the end of its use. -/
def l7 : Name := ⟨2018, 8, 23, "LEVEL2".toList, "LND07".toList, "BOA".toList, "tif".toList⟩

/-- The quality of the first image. -/
def s2aQai : Name := { s2a with product := "QAI".toList }

def ask : Request :=
  { product := "BOA".toList, sensors := ["LND07".toList, "SEN2A".toList], first := Date.setDate Date.initDate 2018 1 1, last := Date.setDate Date.initDate 2018 12 31,
    ignore := Date.setDate Date.initDate 2016 1 1, days := fun _ => true }

example : s2a.text = "20180823_LEVEL2_SEN2A_BOA.tif".toList := by decide +kernel

theorem part_of {w : List Char} (h : (w ≠ [] ∧ w.all (·.isAlphanum) = true)) : Part w := ⟨h.1, fun c hc => List.all_eq_true.1 h.2 c hc⟩

theorem s2a_ok : s2a.Level2 :=
  ⟨⟨by decide, by decide, part_of (by decide), part_of (by decide), part_of (by decide), part_of (by decide), by decide⟩, rfl, by decide, by decide⟩

theorem l7_ok : l7.Level2 :=
  ⟨⟨by decide, by decide, part_of (by decide), part_of (by decide), part_of (by decide), part_of (by decide), by decide⟩, rfl, by decide, by decide⟩

theorem qai_ok : s2aQai.Level2 :=
  ⟨⟨by decide, by decide, part_of (by decide), part_of (by decide), part_of (by decide), part_of (by decide), by decide⟩, rfl, by decide, by decide⟩

theorem ask_usual : Usual ask where
  product := ⟨part_of (by decide), by decide⟩
  capital := ⟨'B', by decide, by decide⟩
  level := by decide
  sensors := by
    intro s hs
    simp only [ask, List.mem_cons, List.not_mem_nil, or_false] at hs
    rcases hs with rfl | rfl
    · exact ⟨part_of (by decide), by decide, ⟨'L', by decide, by decide⟩, by decide, by decide⟩
    · exact ⟨part_of (by decide), by decide, ⟨'S', by decide, by decide⟩, by decide, by decide⟩

theorem txt_foreign : Foreign "readme.txt".toList :=
  ⟨by decide, by decide, by decide, by decide, "readme".toList, "txt".toList, by decide, Or.inr ⟨by decide, by decide⟩⟩

/-- C132: of four files, only the image of Sentinel-2A is used. -/
example : ∃ l, selected ask Date.initDate [l7.text, s2a.text, s2aQai.text, "readme.txt".toList] = .ok l ∧ s2a.text ∈ l.map (·.1) ∧ l7.text ∉ l.map (·.1) ∧ s2aQai.text ∉ l.map (·.1) := by
  obtain ⟨l, h, -, -, hw, -⟩ := c132_selection_partial ask ask_usual Date.initDate [l7.text, s2a.text, s2aQai.text, "readme.txt".toList] (by
    intro e he
    simp only [List.mem_cons, List.not_mem_nil, or_false] at he
    rcases he with rfl | rfl | rfl | rfl
    · exact Or.inr ⟨l7, l7_ok, by decide, rfl⟩
    · exact Or.inr ⟨s2a, s2a_ok, by decide, rfl⟩
    · exact Or.inr ⟨s2aQai, qai_ok, by decide, rfl⟩
    · exact Or.inl txt_foreign)
  refine ⟨l, h, (hw s2a s2a_ok (by decide) (by simp)).2 ?_, fun hc => ?_, fun hc => ?_⟩
  · unfold Wanted; decide +kernel
  · have := (hw l7 l7_ok (by decide) (by simp)).1 hc
    revert this; unfold Wanted; decide +kernel
  · have := (hw s2aQai qai_ok (by decide) (by simp)).1 hc
    revert this; unfold Wanted; decide +kernel

/-- C132, violated: a mosaic in the same directory ends the program. -/
example : selected ask Date.initDate ([s2a.text] ++ ("mosaic_SEN2A_BOA".toList ++ '.' :: "tif".toList) :: []) = .exit :=
  c132_foreign_violated ask Date.initDate [s2a.text] [] "mosaic_SEN2A_BOA".toList "tif".toList "SEN2A".toList "mosaic".toList
    (by intro e he; rw [List.mem_singleton] at he; exact Or.inr ⟨s2a, s2a_ok.ok, he⟩)
    (by decide) (by decide) (by decide) (by decide) (by decide) (by decide) (by decide) (by decide) (by decide) (by decide) (by decide)
    "SEN2A_BOA".toList (by decide)

/-- An image with another product. -/
def xboa : Name := { s2a with product := "XBOA2".toList }

/-- C132, violated: product XBOA2 instead of BOA. -/
example : ∃ k, selected { ask with ignore := Date.setDate Date.initDate 2020 1 1 } Date.initDate [xboa.text] = .ok [(xboa.text, k)] :=
  (c132_substring_violated { ask with ignore := Date.setDate Date.initDate 2020 1 1 } Date.initDate xboa
    ⟨by decide, by decide, part_of (by decide), part_of (by decide), part_of (by decide), part_of (by decide), by decide⟩
    (by decide) (by decide) (by decide +kernel)).1 (by decide)

/-- C133: the quality of the image. -/
example : companion s2a.text "BOA".toList "QAI".toList = .ok "20180823_LEVEL2_SEN2A_QAI.tif".toList :=
  c133_companion_partial s2a s2a_ok.ok "QAI".toList (part_of (by decide)) (by decide) (by decide) (by decide) (by decide)

/-- An image of a sensor whose name contains the product. -/
def moa : Name := { s2a with sensor := "MOA01".toList, product := "MOA".toList }

/-- C133, violated: sensor MOA and product MOA. -/
example : companion moa.text "MOA".toList "QAI".toList = .ok ({ moa with sensor := "QAI01".toList } : Name).text :=
  (c133_sensor_violated moa
    ⟨by decide, by decide, part_of (by decide), part_of (by decide), part_of (by decide), part_of (by decide), by decide⟩ "QAI".toList (part_of (by decide)) (by decide)
    (by decide) (by decide) [] "01".toList ⟨by decide, fun _ _ _ => by simp⟩ (by decide)).1

/-- C133: two threads, one unreadable quality product. -/
example : readAll ⟨true, true, false, false⟩ [[⟨true, true, []⟩, ⟨true, false, []⟩], [⟨true, true, []⟩]] =
    .ok (1, [(true, true, false), (true, false, false), (true, true, false)]) := by decide

example : readAll ⟨false, true, false, true⟩ [[], [⟨true, true, []⟩]] = .ub := c133_quality_violated _ rfl rfl rfl _ (by decide)

/-- C134: 300 × 300 pixels become 100 × 100. -/
example : ∃ N, ∀ fuel, N ≤ fuel → reducePsf 300 300 100 (fun _ _ => 1234) (-9999) fuel 99 42 = some (.ok 1234) :=
  c134_constant 300 300 100 (by norm_num) (by norm_num) 1234 (by norm_num) (by norm_num) (by norm_num) 99 42 (by norm_num) (by norm_num) (by norm_num) (by norm_num)

example : ∃ N, ∀ fuel, N ≤ fuel → ∃ v, reducePsf 300 300 100 (fun y _ => if y = 5 then 100 else -9999) (-9999) fuel 1 42 = some (.ok v) ∧ v ≠ -9999 := by
  obtain ⟨N, h⟩ := c134_missing_partial 300 300 100 (by norm_num) (by norm_num) (fun y _ => if y = 5 then 100 else -9999) 100 100 (by norm_num) (by norm_num)
    (by intro y x _ _ _ _ hne; by_cases h : y = 5 <;> simp_all) 1 42 (by norm_num) (by norm_num) (c134_whole 3 100 (by norm_num) 1) (c134_whole 3 100 (by norm_num) 42)
  refine ⟨N, fun fuel hf => ?_⟩
  obtain ⟨v, h1, h2⟩ := h fuel hf
  refine ⟨v, h1, fun hc => ?_⟩
  have := h2.1 hc 5 126 (by norm_num) (by norm_num) (by norm_num) (by norm_num) (by unfold Overlaps; norm_num) (by unfold Overlaps; norm_num)
  norm_num at this

/-- C134, violated: row 1 of three coarse rows for five fine rows. -/
example : ∃ N, ∀ fuel, N ≤ fuel → reducePsf 5 5 3 (fun y _ => if y = 3 then 500 else -9999) (-9999) fuel 1 0 = some (.ok (-9999)) :=
  (c134_coverage_violated 0 5 1 (by norm_num) (fun y _ => if y = 3 then 500 else -9999) 500 500 (by norm_num) (by norm_num)
    (by intro y x _ _ _ _ hne; by_cases h : y = 3 <;> simp_all) (by simp) (by simp) 0 (by norm_num)).2

/-- C136: value 2 is not in the mask. -/
example : readMask [0, 1, 2, 1] = some [0, 1, 0, 1] ∧ readMask [0, 2] = none := by decide

end Verif.Ard
