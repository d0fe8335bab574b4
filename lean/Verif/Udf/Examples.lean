import Verif.Udf.PropsR

/-!
# Examples for user-defined functions
-/

namespace Verif.Udf

open Verif.Str Verif.Udf.Spec

/-- Two images with 2 x 3 pixels, one band and one auxiliary band; pixel 4 of the second is unusable. -/
def ims (t : Nat) : Img :=
  { dat := fun _ p => 100 * (t + 1) + p, aux := fun _ p => 1000 + p, msk := fun p => !(t == 1 && p == 4) }

/-- Two output bands. -/
def dim : Dim := ⟨2, 1, 1, 2, 3, 2⟩

/-- Sum of the first band over time, and number of time steps. -/
def total (m : List (List Int)) : Option (List Int) := some [(m.map fun l => l.getD 0 0).sum, m.length]

/-- The same with missing values: the first one, the number of values that are not missing. -/
def totalNA (m : List (List (Option Int))) : Option (List (Option Int)) :=
  some [(m.getD 1 []).getD 0 none, some (m.filter fun l => (l.getD 0 none).isSome).length]

/-- Only the first row is inside the mask. -/
def firstRow (p : Nat) : Bool := p < 3

/-- `c198_python`: band 0 of image 1 at row 1 and column 2, and the unusable pixel. -/
example : numpyAt (pyArray ims dim (-9999)) 2 2 3 1 0 1 2 = some 205 ∧
    numpyAt (pyArray ims dim (-9999)) 2 2 3 1 1 1 1 = some (-9999) :=
  ⟨c198_python ims dim (-9999) 1 0 1 2 (by decide) (by decide) (by decide) (by decide),
    c198_python ims dim (-9999) 1 1 1 1 (by decide) (by decide) (by decide) (by decide)⟩

/-- `c198_python_tsa`. -/
example : numpyAt (pyArrayTsa (fun t p => 10 * t + p) dim) 1 2 3 1 0 1 2 = some 15 :=
  c198_python_tsa _ dim 1 1 2 (by decide) (by decide) (by decide)

/-- `c199_python_pixel`, `c200_python_violated`: the pixel at row 1 and column 2 is outside of the mask. -/
example (out : Nat → Nat → Int) (h : pyRunPixel total ims dim (-9999) firstRow = .ok out) :
    out 0 5 = 310 ∧ out 0 5 ≠ -9999 :=
  c200_python_violated total ims dim (-9999) firstRow out h 0 1 2 (by decide) (by decide) (by decide) (by decide)
    [310, 2] (by decide) 310 rfl (by decide)

/-- `c201_python`: this run does not end the program. -/
example : pyRunPixel total ims dim (-9999) firstRow ≠ .exit ∧ pyRunPixel (fun _ => none) ims dim (-9999) firstRow = .exit := by
  refine ⟨fun h => ?_, ?_⟩
  · obtain ⟨p, -, hp⟩ := (c201_python total (fun _ => none) ims dim (-9999) firstRow).1.1 h
    cases hp
  · exact (c201_python (fun _ => none) (fun _ => none) ims dim (-9999) firstRow).1.2 ⟨0, by decide, rfl⟩

/-- `c199_python_chunk`: a function that numbers its values. -/
example : ∃ out, pyRunChunk (fun _ => some ((List.range 12).map fun i : Nat => (i : Int))) ims dim (-9999) firstRow = .ok out ∧
    out 1 5 = 11 := by
  obtain ⟨out, h1, h2⟩ := c199_python_chunk (fun _ => some ((List.range 12).map fun i : Nat => (i : Int))) ims dim (-9999)
    firstRow _ rfl
  exact ⟨out, h1, (h2 1 1 2 (by decide) (by decide) (by decide)).trans (by decide)⟩

/-- `c198_r_pixel`: three matrices. -/
example : (((List.range (dim.ny * dim.nx)).filter firstRow).map (matrixNA ims dim (-9999))).length = 3 := by decide

/-- `c198_r_chunk_violated`: row 1, column 0 of the R array is pixel 1. -/
example : rAt (rArrayChunk ims dim (-9999) firstRow) 2 2 2 0 0 1 0 = some 101 :=
  (c198_r_chunk_violated ims dim (-9999) firstRow 0 0 1 0 (by decide) (by decide) (by decide) (by decide)).1

/-- `c199_r_pixel`, `c200_r_partial`. -/
example : ∃ out, rRunPixel totalNA ims dim (-9999) firstRow = .ok out ∧ out 0 2 = 202 ∧ out 1 2 = 2 ∧ out 1 5 = -9999 := by
  obtain ⟨out, h1, h2⟩ := c199_r_pixel totalNA ims dim (-9999) firstRow
    (fun p => [((matrixNA ims dim (-9999) p).getD 1 []).getD 0 none,
      some ((matrixNA ims dim (-9999) p).filter fun l => (l.getD 0 none).isSome).length])
    (fun p _ _ => ⟨rfl, rfl⟩)
  exact ⟨out, h1, (h2 2 0 (by decide) (by decide)).trans (by decide), (h2 2 1 (by decide) (by decide)).trans (by decide),
    c200_r_partial totalNA ims dim (-9999) firstRow out h1 5 1 (by decide) (by decide) (by decide)⟩

/-- A chunk function that numbers its values. -/
def count (_ : List (Option Int)) : Option (List (Option Int)) := some ((List.range 12).map fun i : Nat => some (i : Int))

/-- `c199_r_chunk_violated`: number 2, at row 1 and column 0, is written to row 0 and column 1. -/
example : ∃ out, rRunChunk count ims dim (-9999) firstRow = .ok out ∧ out 0 1 = 2 := by
  obtain ⟨out, h1, h2⟩ := c199_r_chunk_violated count ims dim (-9999) firstRow _ rfl (by decide) (by decide) (by decide)
  exact ⟨out, h1, (h2 0 (by decide)).trans (by decide)⟩

/-- `c200_r_chunk_violated`: pixel 5 is outside of the mask. -/
example : ∃ out, rRunChunk count ims dim (-9999) firstRow = .ok out ∧ out 1 5 ≠ -9999 :=
  c200_r_chunk_violated count ims dim (-9999) firstRow _ rfl (by decide) 5 1 (by decide) (by decide) (by decide) 11
    (by decide) (by decide)

/-- `c199_r_pixelwise`: a function that returns a constant for every pixel. -/
example : ∃ out, rRunChunk (fun _ => some (List.replicate 12 (some 7))) ims dim (-9999) firstRow = .ok out ∧ out 1 2 = 7 := by
  obtain ⟨out, h1, h2⟩ := c199_r_pixelwise (fun _ => some (List.replicate 12 (some 7))) ims dim (-9999) firstRow
    (List.replicate 12 (some 7)) (fun _ => [some 7, some 7]) rfl (by decide) (by
      intro y x b hy hx hb
      have hy' : y < 2 := hy
      have hx' : x < 3 := hx
      have hb' : b < 2 := hb
      have e1 : (List.replicate 12 (some (7 : Int))).getD (b + dim.nband * (y + dim.ny * x)) none = some 7 := by
        apply getD_some
        rw [List.getElem?_replicate, if_pos]
        show b + 2 * (y + 2 * x) < 12
        omega
      have e2 : [some (7 : Int), some 7].getD b none = some 7 := by
        have : b = 0 ∨ b = 1 := by omega
        rcases this with rfl | rfl <;> rfl
      rw [e1, e2])
  exact ⟨out, h1, (h2 2 1 (by decide) (by decide) (by decide)).trans (by decide)⟩

/-- `c201_r_violated`, `c201_short_violated`. -/
example : rRunPixel (fun _ => none) ims dim (-9999) firstRow = .ub ∧
    rRunPixel (fun _ => some [some 1]) ims dim (-9999) firstRow = .ub :=
  ⟨(c201_r_violated (fun _ => none) count ims dim (-9999) firstRow).1 ⟨0, by decide, by decide, rfl⟩,
    c201_short_violated (fun _ => some [some 1]) ims dim (-9999) firstRow 1 (by decide) (fun _ => ⟨_, rfl, rfl⟩) 0
      (by decide) (by decide)⟩

end Verif.Udf
