import Verif.Csd.Props
import Mathlib.Tactic.FinCases

/-!
# Concrete cases for selection and download
-/

namespace Verif.Csd

/-- Two processings of one acquisition, and another acquisition of the next day. -/
def exCat : List Scene :=
  [⟨"T32UQD", "S2A", 20180501, 1010, 12, 205, 1⟩, ⟨"T32UQD", "S2A", 20180501, 1010, 12, 206, 2⟩, ⟨"T32UQD", "S2B", 20180502, 1020, 30, 206, 3⟩]

def exQuery : Query := ⟨["T32UQD"], ["S2A", "S2B"], 20180101, 20181231, 0, 50⟩

-- c166_criteria, c166_latest, c166_found_partial: the hypotheses hold, and the later processing is taken
example : ∀ a ∈ exCat, ∀ b ∈ exCat, a.tile = b.tile → a.date = b.date → a.time = b.time ∧ a.sensor = b.sensor := by decide +kernel
example : ∀ s ∈ exCat, s.tile ∈ exQuery.tiles ∧ s.sensor ∈ exQuery.sensors ∧ (exQuery.start ≤ s.date ∧ s.date ≤ exQuery.stop) ∧ exQuery.cloudMin ≤ s.cloud ∧
    s.cloud ≤ exQuery.cloudMax := by decide +kernel
example : (select exQuery exCat).map (·.baseline) = [206, 206] := by decide +kernel

-- c166_twice_violated: two orbits of a day
example : let a : Scene := ⟨"T35XMA", "S2A", 20180501, 1010, 12, 205, 1⟩; let b : Scene := ⟨"T35XMA", "S2A", 20180501, 1150, 3, 205, 2⟩
    (select ⟨["T35XMA"], ["S2A"], 20180101, 20181231, 0, 50⟩ [a, b]) = [b] := by decide +kernel

/-- Scenes of three files. -/
def exFiles : Id → Nat := fun _ => 3

-- c167_queue: a run that is interrupted in its second scene
example : ∃ w, After exFiles empty w ∧ w.queue = [7] ∧ w.dir 8 = some (1, true) :=
  ⟨((process exFiles empty [7, 8])[9]'(by decide)), .run [7, 8] .refl (List.getElem_mem _), by decide, by decide⟩

-- c168_all_partial: the next run completes it
example : let w := (process exFiles empty [7, 8])[9]'(by decide)
    (∀ s ∈ [7, 8], w.dir s = none ∨ (∃ k, w.dir s = some (k, true)) ∨ s ∈ w.queue) ∧ (finish exFiles w [7, 8]).queue = [7, 8] := by
  refine ⟨?_, by decide⟩
  intro s hs
  fin_cases hs
  · exact .inr (.inr (by decide))
  · exact .inr (.inl ⟨1, by decide⟩)

-- c168_queue_violated, c168_files_violated: hypotheses
example : ∀ s, 0 < exFiles s := fun _ => by unfold exFiles; decide
example : 2 ≤ exFiles 7 := by decide

end Verif.Csd
