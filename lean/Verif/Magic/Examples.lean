import Verif.Magic.Props
import Mathlib.Tactic.NormNum

/-!
# Examples for replacement vectors
-/

namespace Verif.Magic

open Spec

/-- Two vectors with two values. -/
def exDs : List Vector' := [("SET".toList, ["001".toList, "002".toList]), ("NTREE".toList, ["100".toList, "500".toList])]

/-- `++START++`, `FILE = a_{%SET%}_{%NTREE%}.txt`, `RF = {%NTREE%}`. -/
def exBody : List (List Piece) :=
  [[.text "++START++".toList], [.text "FILE = a_".toList, .var "SET".toList, .text "_".toList, .var "NTREE".toList, .text ".txt".toList],
    [.text "RF = ".toList, .var "NTREE".toList]]

theorem exDs_ok : Vectors exDs where
  some := by simp [exDs]
  once := by decide +kernel
  names := by unfold NameChar exDs; decide +kernel
  values := by unfold ValueChar exDs; decide +kernel

theorem exBody_ok : Lines exBody where
  start := by decide +kernel
  texts := by
    intro line hl t ht
    simp only [exBody, List.mem_cons, List.not_mem_nil, or_false] at hl
    rcases hl with rfl | rfl | rfl <;> simp only [List.mem_cons, List.not_mem_nil, or_false, Piece.text.injEq, reduceCtorEq, false_or] at ht
    · subst ht; decide +kernel
    · rcases ht with rfl | rfl | rfl <;> decide +kernel
    · subst ht; decide +kernel
  uses := by
    intro line hl k hk
    simp only [exBody, List.mem_cons, List.not_mem_nil, or_false] at hl
    unfold NameChar
    rcases hl with rfl | rfl | rfl <;> simp only [List.mem_cons, List.not_mem_nil, or_false, Piece.var.injEq, reduceCtorEq, false_or] at hk
    · rcases hk with rfl | rfl <;> decide +kernel
    · subst hk; decide +kernel
  others := by decide +kernel

example : run .all (exDs.map definition ++ exBody.map written) =
    .files ((combinations (exDs.map (·.2))).map fun c => exBody.map (filled (lookup (exDs.map (·.1)) c))) :=
  c164_all_partial exDs exDs_ok (by decide +kernel) exBody exBody_ok

/-- The third file: SET = 002, NTREE = 100. -/
example : ((combinations (exDs.map (·.2))).map fun c => exBody.map (filled (lookup (exDs.map (·.1)) c)))[2]? =
    some ["++START++".toList, "FILE = a_002_100.txt".toList, "RF = 100".toList] := by decide +kernel

example : (combinations (exDs.map (·.2))).length = 4 := (c164_combinations _).2.1

example : ∃ files, run .paired (exDs.map definition ++ exBody.map written) = .files files ∧ files.length = 2 ∧
      ∀ i < 2, files[i]? = some (exBody.map (filled (lookup (exDs.map (·.1)) (exDs.map fun d => d.2.getD i [])))) :=
  c165_paired_partial exDs exDs_ok 2 (by decide +kernel) exBody exBody_ok

/-- A third value of the first variable only. -/
example : run .paired ([("SET".toList, ["001".toList, "002".toList, "003".toList]), ("NTREE".toList, ["100".toList, "500".toList])].map definition ++ exBody.map written) = .usage := by
  refine c165_lengths _ ⟨by simp, by decide +kernel, by unfold NameChar; decide +kernel, by unfold ValueChar; decide +kernel⟩
    ("SET".toList, ["001".toList, "002".toList, "003".toList]) ("NTREE".toList, ["100".toList, "500".toList]) (by simp) (by simp) (by decide) exBody exBody_ok

/-- `%SET%: 001` gives `FILE = a_{001}_…`. -/
example : run .all (definition ("SET".toList, ["001".toList]) :: exBody.map written) =
    .files [exBody.map (filled fun x => if x = "SET".toList then some ("{".toList ++ "001".toList ++ "}".toList) else none)] :=
  c164_single_violated _ _ ⟨by unfold NameChar; decide +kernel, by simp, by decide +kernel⟩ (by decide +kernel) exBody exBody_ok

/-- `%SET%: a,b`. -/
example : run .all (definition ("SET".toList, ["a".toList ++ ',' :: "b".toList]) :: exBody.map written) =
    .files (["a".toList, "b".toList].map fun v => exBody.map (filled fun x => if x = "SET".toList then some v else none)) :=
  c164_comma_violated _ _ _ ⟨by unfold NameChar; decide +kernel, by simp, by decide +kernel⟩ (by decide +kernel) exBody exBody_ok

/-- `%SET%: 001 002 ` with a space at the end. -/
example : run .all ((definition ("SET".toList, ["001".toList, "002".toList]) ++ " ".toList) :: exBody.map written) =
    .files ((["001".toList, "002".toList] ++ [[]]).map fun v => exBody.map (filled fun x => if x = "SET".toList then some v else none)) :=
  c164_space_violated _ _ ⟨by unfold NameChar; decide +kernel, by simp, by decide +kernel⟩ (by decide +kernel) exBody exBody_ok

/-- `%SET%: a&b`. -/
example : One "SET".toList ["a&b".toList] := ⟨by unfold NameChar; decide +kernel, by simp, by decide +kernel⟩

end Verif.Magic
