import Mathlib.Tactic.FinCases
import Mathlib.Tactic.Linarith
import Mathlib.Data.Fintype.Basic
import Mathlib.Data.List.FinRange
import Verif.Ccl.Model
import Verif.Ccl.Spec

/-! # The eight neighbours of a pixel -/

namespace Verif.Ccl

/-- The search for the next pixel, `b` tells which neighbours are set. -/
def search (b : Fin 8 → Bool) : Nat → Fin 8 → Option (Fin 8)
  | 0, _ => none
  | n + 1, s => if b s then some s else search b n (s + 1)

/-- From `s - 1` to `e`, no neighbour is set. -/
def arcTo (b : Fin 8 → Bool) : Nat → Fin 8 → Fin 8 → Bool
  | 0, _, _ => false
  | n + 1, a, e => !b a && (a == e || arcTo b n (a + 1) e)

/-- `e` is in the sequence of unset neighbours that begins at `s - 1`. -/
def arc (b : Fin 8 → Bool) (s e : Fin 8) : Bool := arcTo b 8 (s - 1) e

def even (d : Fin 8) : Bool := d.val % 2 == 0

/-- What is known when a search starts at `s`. -/
def pre (b : Fin 8 → Bool) (s : Fin 8) : Bool := !b (s - 1) && (!even s || !b s || !b (s - 2))

/-- What is known after a step. -/
def good (b : Fin 8 → Bool) (s : Fin 8) : Bool := b (s - 2) && !b (s - 1) && (!even s || !b s)

def table (b0 b1 b2 b3 b4 b5 b6 b7 : Bool) : Fin 8 → Bool
  | 0 => b0
  | 1 => b1
  | 2 => b2
  | 3 => b3
  | 4 => b4
  | 5 => b5
  | 6 => b6
  | 7 => b7

theorem table_eq (b : Fin 8 → Bool) : b = table (b 0) (b 1) (b 2) (b 3) (b 4) (b 5) (b 6) (b 7) := by
  funext i
  fin_cases i <;> rfl

theorem forall_table {P : (Fin 8 → Bool) → Prop}
    (h : ∀ b0 b1 b2 b3 b4 b5 b6 b7, P (table b0 b1 b2 b3 b4 b5 b6 b7)) (b : Fin 8 → Bool) : P b := by
  rw [table_eq b]; exact h ..

theorem good_pre (b : Fin 8 → Bool) : ∀ s, good b s = true → pre b s = true := by
  revert b; apply forall_table; decide +kernel

/-- With the knowledge at the start, the search fails for isolated pixels only. -/
theorem search_none (b : Fin 8 → Bool) : ∀ s, pre b s = true → search b 7 s = none → ∀ d, b d = false := by
  revert b; apply forall_table; decide +kernel

theorem search_good (b : Fin 8 → Bool) : ∀ s, good b s = true → (search b 7 s).isSome = true := by
  revert b; apply forall_table; decide +kernel

/-- What was seen before the next pixel. -/
theorem search_seen (b : Fin 8 → Bool) : ∀ s d, pre b s = true → search b 7 s = some d →
    b d = true ∧ b (d - 1) = false ∧ (even d = true → b (d - 2) = false) := by
  revert b; apply forall_table; decide +kernel

theorem search_arc (b : Fin 8 → Bool) : ∀ s d, pre b s = true → search b 7 s = some d →
    arc b s (d - 1) = true ∧ (even d = true → good b s = true → arc b s (d - 2) = true) := by
  revert b; apply forall_table; decide +kernel

theorem search_unique' (b : Fin 8 → Bool) : ∀ s s', good b s = true → good b s' = true →
    search b 7 s = search b 7 s' → s = s' := by
  revert b; apply forall_table; decide +kernel

/-- The first set neighbour determines where the search started. -/
theorem search_unique (b : Fin 8 → Bool) (s s' d) (h : good b s = true) (h' : good b s' = true)
    (e : search b 7 s = some d) (e' : search b 7 s' = some d) : s = s' :=
  search_unique' b s s' h h' (e.trans e'.symm)

/-- The last set neighbour before `e`, two further. -/
def back (b : Fin 8 → Bool) : Nat → Fin 8 → Fin 8
  | 0, e => e
  | n + 1, e => if b e then e + 2 else back b n (e - 1)

theorem arc_back (b : Fin 8 → Bool) : ∀ s e, good b s = true → arc b s e = true → s = back b 8 e := by
  revert b; apply forall_table; decide +kernel

theorem arc_unique (b : Fin 8 → Bool) (s s' e) (h : good b s = true) (h' : good b s' = true)
    (a : arc b s e = true) (a' : arc b s' e = true) : s = s' :=
  (arc_back b s e h a).trans (arc_back b s' e h' a').symm

theorem arc_exists' (b : Fin 8 → Bool) : ∀ e, even e = true → b e = false → (List.finRange 8).any b = true →
    good b (back b 8 e) = true ∧ arc b (back b 8 e) e = true := by
  revert b; apply forall_table; decide +kernel

/-- Every unset neighbour to the sides is in one of the sequences. -/
theorem arc_exists (b : Fin 8 → Bool) : ∀ e d, even e = true → b e = false → b d = true →
    ∃ s, good b s = true ∧ arc b s e = true := fun e d he hb hd =>
  ⟨_, arc_exists' b e he hb (List.any_eq_true.2 ⟨d, List.mem_finRange d, hd⟩)⟩

theorem arc_unset (b : Fin 8 → Bool) : ∀ s e, arc b s e = true → b e = false := by
  revert b; apply forall_table; decide +kernel

end Verif.Ccl
