import Verif.Gdalopt.Props

/-!
# Examples: the hypotheses of the theorems are met
-/

namespace Verif.Gdalopt

open Verif.Str (Out cstr)

/-- C137: a file with the options in a mixed order. -/
def sample : List (List Char × List Char) :=
  [("DRIVER".toList, "GTiff".toList), ("COMPRESS".toList, "LZW".toList), ("EXTENSION".toList, "tif".toList), ("TILED".toList, "YES".toList)]

theorem sample_words : ∀ p ∈ sample, Word p.1 ∧ Word p.2 := by
  unfold Word
  decide +kernel

example : String.ofList (fileText sample) = "DRIVER = GTiff\nCOMPRESS = LZW\nEXTENSION = tif\nTILED = YES\n" := by decide +kernel
example : ∃ o, parse (some (fileText sample)) = .ok o ∧ o.driver = some "GTiff".toList ∧ o.extension = some "tif".toList ∧
    passed o = some [("COMPRESS".toList, "LZW".toList), ("TILED".toList, "YES".toList)] :=
  c137_options_partial sample sample_words _ _ (by decide +kernel) (by decide +kernel) (by decide +kernel)
/-- C138: the same after three copies. -/
example : ∃ o c, parse (some (fileText sample)) = .ok o ∧ copies 3 o = .ok c ∧ c.driver = some "GTiff".toList ∧ c.extension = some "tif".toList ∧ passed c = some (others sample) :=
  c138_custom sample sample_words _ _ (by decide +kernel) (by decide +kernel) (by decide +kernel) 3
/-- C137: without driver. -/
example : parse (some (fileText (sample.drop 1))) = .exit := c137_missing _ (fun p hp => sample_words p (List.mem_of_mem_drop hp)) (Or.inl (by decide +kernel))
/-- C137, violated: only the mandatory lines. -/
example : parse (some "DRIVER = GTiff\nEXTENSION = tif\n".toList) = .exit := by decide +kernel
/-- C137, violated: a repeated driver. -/
example : (match parse (some "DRIVER = GTiff\nDRIVER = COG\nEXTENSION = tif\nTILED = YES\n".toList) with
    | .ok o => passed o
    | _ => none) = some [("TILED".toList, "YES".toList), ([], [])] := by decide +kernel
/-- C138. -/
example : documented .gtiff ≠ none := by decide

end Verif.Gdalopt
