import Verif.Imp.Season
import Verif.Imp.Drive

/-! # The hypotheses are met, and some values -/

namespace Verif.Imp

open Verif.Float (Nearest exists_round)
open Spec (InImage InSeason)

/-! ## Seasons -/

/-- Breakpoints 300, 60, 150, 300: one season goes over the turn of the year. -/
def exWin : Nat → Int := fun k => [300, 60, 150, 300].getD k 0

def exObs : List Obs := [⟨true, 2018, 320, fun _ => 100⟩, ⟨true, 2019, 20, fun _ => 301⟩, ⟨false, 2019, 70, fun _ => 5000⟩,
  ⟨true, 2019, 200, fun _ => 1000⟩]

example : average exWin 3 (-1) (-9999) false exObs 0 0 = .ok 200 := by decide +kernel
example : average exWin 3 (-1) (-9999) false exObs 1 0 = .ok 467 := by decide +kernel
example : average exWin 3 (-1) (-9999) false exObs 2 0 = .ok 1000 := by decide +kernel
example : average exWin 3 (-1) (-9999) false [] 2 0 = .ok (-9999) := by decide +kernel

/-- The hypotheses of `c97_average_partial`. -/
example : (∀ o ∈ exObs, o.doy ≤ 365) ∧ (∀ o ∈ exObs, -32768 ≤ o.dat 0 ∧ o.dat 0 ≤ 32767) ∧
    (∀ v < 3, ∀ w < 3, v ≠ w → ∀ d, InSeason (exWin v) (exWin (v + 1)) d → ¬ InSeason (exWin w) (exWin (w + 1)) d) := by
  refine ⟨by decide, by decide, ?_⟩
  intro v hv w hw hne d h1 h2
  have hv' : v = 0 ∨ v = 1 ∨ v = 2 := by omega
  have hw' : w = 0 ∨ w = 1 ∨ w = 2 := by omega
  rcases hv' with rfl | rfl | rfl <;> rcases hw' with rfl | rfl | rfl <;>
    simp [exWin, InSeason] at h1 h2 hne <;> omega

/-- The case of `c97_counted`. -/
example : counted exWin 3 (-1) false exObs = true ∧ counted exWin 3 (-1) true exObs = false ∧
    counted exWin 3 (-1) false [⟨false, 2019, 70, fun _ => 5000⟩] = false := by decide

/-- The case of `c97_seasons_violated`. -/
example : average (fun k => if k = 0 then 300 else 60) 1 2019 (-9999) false
    [⟨true, 2018, 320, fun _ => 500⟩, ⟨true, 2020, 20, fun _ => 2500⟩] 0 0 = .ok 1500 := by decide +kernel

/-! ## Texture -/

example : standardize (fun x => if x = 4 then 2 else 0) (-9999) [1, -9999, 3, 5] = [some (-1), some (-9999), some 0, some 1] := by
  decide +kernel

/-- The hypotheses of `c100_standard_partial`. -/
example : sampleSd (fun x => if x = 4 then 2 else 0) (([1, -9999, 3, 5] : List ℚ).filter fun x => x ≠ -9999) = 2 := by
  decide +kernel

/-- A band of one row with the values 1, 3, 5. -/
def exBand : Band := fun _ j => if j = 0 then 1 else if j = 1 then 3 else 5

example : focalSd (fun x => if x = 4 then 2 else if x = 2 then 3/2 else 0) [exBand, fun _ _ => -9999] (-9999) 1 3 1 0 1 = 2 := by
  decide +kernel
example : focalSd (fun x => if x = 4 then 2 else if x = 2 then 3/2 else 0) [exBand] (-9999) 1 3 1 0 0 = 3/2 := by
  decide +kernel
example : focalSd (fun x => if x = 4 then 2 else if x = 2 then 3/2 else 0) [exBand] (-9999) 0 3 1 0 0 = 0 := by
  decide +kernel

/-- The hypotheses of `c100_texture`. -/
example : ([(0, 0), (0, 1), (0, 2)] : List (Int × Int)).Nodup ∧ ∀ q : Int × Int, q ∈ ([(0, 0), (0, 1), (0, 2)] : List (Int × Int)) ↔
    InImage 3 1 q.1 q.2 ∧ |q.1 - 0| ≤ (1 : Nat) ∧ |q.2 - 1| ≤ (1 : Nat) ∧ exBand q.1 q.2 ≠ -9999 := by
  refine ⟨by decide, fun q => ?_⟩
  obtain ⟨a, b⟩ := q
  have hb : exBand a b ≠ -9999 := by unfold exBand; split_ifs <;> norm_num
  simp only [List.mem_cons, List.not_mem_nil, or_false, Prod.mk.injEq, InImage, hb, ne_eq, not_false_eq_true, and_true, abs_le]
  omega

/-! ## Prediction -/

/-- A row of four pixels; the last one is spectrally different. -/
def exInput : Input :=
  { nx := 4, ny := 1, nbHr := 1, nbMr := 1
    hr := fun _ _ j => if j = 3 then 9 else 0
    hrTex := fun _ _ => 0
    mr := fun _ _ j => if j = 0 then 1000 else if j = 1 then 2000 else if j = 2 then 3000 else 9000
    mrTex := fun _ _ _ => 0
    nodataHr := -9999, nodataMr := -9999, h := 2, mink := 1 }

example : improphe (fun _ => 1) id id exInput 0 1 0 = some (.ok 2000) := by decide +kernel
example : improphe (fun _ => 1) id id exInput 0 0 0 = some (.ok 2000) := by decide +kernel
example : improphe (fun _ => 1) id id exInput 0 3 0 = some (.ok 9000) := by decide +kernel

/-- The hypotheses of `c98_between`. -/
example : ∃ flt : ℚ → ℚ, (∀ x, Nearest 24 x (flt x)) ∧ (∀ x : ℚ, |id x - x| ≤ |x| / 2 ^ 40) ∧ InImage exInput.nx exInput.ny 0 1 ∧
    exInput.hr 0 0 1 ≠ exInput.nodataHr ∧ (∀ b < exInput.nbMr, exInput.mr b 0 1 ≠ exInput.nodataMr) ∧
    ∀ i j, -32768 ≤ exInput.mr 0 i j ∧ exInput.mr 0 i j ≤ 32767 := by
  obtain ⟨flt, h⟩ := exists_round 24 (by norm_num)
  refine ⟨flt, h, fun x => ?_, by unfold InImage exInput; simp, by decide +kernel, ?_, ?_⟩
  · simp only [id, sub_self, abs_zero]; positivity
  · intro b hb; simp [exInput]
  · intro i j; simp only [exInput]; split_ifs <;> omega

/-- The hypothesis of `c98_alone`: no usable pixel (the fine resolution data are nodata everywhere). -/
example : ∀ q, ¬ Usable { exInput with hr := fun _ _ _ => -9999 } 0 1 (2 / 5) q := by
  rintro q ⟨_, _, h, _⟩
  exact h rfl

/-! ## Products -/

/-- A chunk with one valid pixel in the middle of a row of three; the first is masked, the last not valid. -/
def exChunk : Chunk :=
  { nx := 3, ny := 1, nbHr := 1, nbMr := 2
    hr := fun _ _ j => if j = 2 then -9999 else 0
    nodataHr := -9999, nodata := -9999, ksize := 1, ksd := 1, mink := 0
    masked := fun _ j => decide (j = 0)
    dat := fun b _ j => if j = 2 then 77 else 100 * (b + 1) }

def exMsk : Int → Int → Bool := fun _ j => decide (j ≠ 2)

example : (l2 (fun _ => 1) (fun _ => 0) id id false exChunk exMsk 1 0 0 = .ok (-9999)) ∧
    (l2 (fun _ => 1) (fun _ => 0) id id false exChunk exMsk 1 0 1 = .ok 200) ∧
    (l2 (fun _ => 1) (fun _ => 0) id id false exChunk exMsk 1 0 2 = .ok 77) := by decide +kernel

/-- The hypothesis `Far`. -/
example : Far exChunk := by
  refine ⟨by decide, ?_⟩
  intro i j i' j' h1 h2 b _
  have e1 : j = 2 := by
    by_contra hc
    simp [exChunk, hc] at h1
  have e2 : j' ≠ 2 := by
    intro hc
    simp [exChunk, hc] at h2
  simp [exChunk, e1, e2]
  norm_num

example : year (fun _ => 1) (fun _ => 0) id id exChunk (fun _ => exMsk) 1 0 1 = .ok 200 := by decide +kernel
example : year (fun _ => 1) (fun _ => 0) id id exChunk (fun _ => exMsk) 1 0 0 = .ok 0 := by decide +kernel

/-- Two years with data, one without, and one with: the last band is empty. -/
example : ((confield (fun _ => 1) (fun _ => 0) id id (fun y => decide (y = 2003)) (fun _ _ => exChunk) (fun _ => exMsk) 2000 10
    [2001, 2002, 2003, 2004]).map fun l => l.map fun p => p 1 0 1) = some [.ok 200, .ok 200, .ok 200, .ok 0] := by
  decide +kernel

end Verif.Imp
