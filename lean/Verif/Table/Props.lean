import Mathlib.Tactic.Linarith
import Mathlib.Tactic.NormNum
import Verif.Table.Spec
import Verif.Stats.Props

/-!
# Theorems about tables: C48
-/

namespace Verif.Table

open Spec
open Verif.Str (Out)

variable {K : Type} [Field K]

theorem bind_ok {α β : Type} {o : Out α} {f : α → Out β} {b : β} (h : o.bind f = .ok b) :
    ∃ a, o = .ok a ∧ f a = .ok b := by
  cases o with
  | ok a => exact ⟨a, rfl, h⟩
  | exit => cases h
  | ub => cases h

theorem strip_ok {rowNames : Bool} {l l' : List String} (h : strip rowNames l = .ok l') :
    l' = cells rowNames l ∧ (rowNames = true → l ≠ [] → l' ≠ []) := by
  unfold strip at h
  cases l with
  | nil => cases h; cases rowNames <;> simp [cells]
  | cons x xs =>
    simp only at h
    cases rowNames with
    | false => simp at h; simp [cells, h]
    | true =>
      simp only [if_true] at h
      split at h
      · cases h
      · next hne => cases h; simp only [cells, if_true, List.tail_cons, true_and]; intro _ _ hc; simp [hc] at hne

/-- What is known about the state while reading, in a table with column names: after the first line. -/
structure Reg (s : St K) : Prop where
  len : s.rows.length = s.row
  reg : ∀ r ∈ s.rows, r.length = s.ncol

theorem readLine_reg {atof : String → K} {rowNames colNames : Bool} {s s' : St K} {l : List String} (h : Reg s)
    (hl : readLine atof rowNames colNames s l = .ok s') : Reg s' := by
  unfold readLine at hl
  obtain ⟨items, h1, h2⟩ := bind_ok hl
  simp only at h2
  cases hcounts : (!colNames || decide (s.line > 0)) with
  | false =>
    simp only [hcounts, Bool.false_eq_true, if_false] at h2
    by_cases hc : s.row > 0 ∧ items.length ≠ (if s.row = 0 then items.length else s.ncol)
    · rw [if_pos hc] at h2; cases h2
    · rw [if_neg hc] at h2
      cases h2
      refine ⟨h.len, ?_⟩
      intro r hr
      have hlen := h.len
      by_cases h0 : s.row = 0
      · have : s.rows = [] := List.length_eq_zero_iff.1 (by omega)
        simp only [this] at hr
        cases hr
      · simp only [if_neg h0]
        exact h.reg r hr
  | true =>
    simp only [hcounts, if_true] at h2
    by_cases hc : s.row + 1 > 0 ∧ items.length ≠ (if s.row = 0 then items.length else s.ncol)
    · rw [if_pos hc] at h2; cases h2
    · rw [if_neg hc] at h2
      cases h2
      have hlen : items.length = if s.row = 0 then items.length else s.ncol := by
        by_contra hne
        exact hc ⟨by omega, hne⟩
      refine ⟨by simp [h.len], ?_⟩
      intro r hr
      simp only at hr ⊢
      rcases List.mem_append.1 hr with hr | hr
      · by_cases h0 : s.row = 0
        · have : s.rows = [] := List.length_eq_zero_iff.1 (by have := h.len; omega)
          rw [this] at hr
          cases hr
        · rw [if_neg h0]
          exact h.reg r hr
      · rw [List.mem_singleton] at hr
        subst hr
        rw [← hlen]
        split <;> simp

theorem readLines_reg {atof : String → K} {rowNames colNames : Bool} (ls : List (List String)) {s s' : St K} (h : Reg s)
    (hl : readLines atof rowNames colNames s ls = .ok s') : Reg s' := by
  induction ls generalizing s with
  | nil => cases hl; exact h
  | cons l ls ih =>
    obtain ⟨s1, h1, h2⟩ := bind_ok hl
    exact ih (readLine_reg h h1) h2

/-! ## C48 -/

/-- C48: in a table that was read, all rows have the same number of cells, and there is at least one. -/
theorem c48_regular (atof : String → K) (rowNames colNames : Bool) (file : List (List String)) (s : St K)
    (h : readTable atof rowNames colNames file = .ok s) :
    s.rows.length = s.row ∧ (∀ r ∈ s.rows, r.length = s.ncol) ∧ 0 < s.row ∧ 0 < s.ncol := by
  obtain ⟨s1, h1, h2⟩ := bind_ok h
  split at h2
  · cases h2
  · next hc =>
    cases h2
    have hr := readLines_reg file (s := ⟨0, 0, 0, [], []⟩) ⟨rfl, by simp⟩ h1
    exact ⟨hr.len, hr.reg, by omega, by omega⟩

/-- Reading data lines once the number of columns is known. -/
theorem readLines_data (atof : String → K) (rowNames colNames : Bool) (ls : List (List String)) (s : St K)
    (hrow : 0 < s.row) (hline : 0 < s.line)
    (hlen : ∀ l ∈ ls, (cells rowNames l).length = s.ncol) (hn : 0 < s.ncol) :
    readLines atof rowNames colNames s ls = .ok ⟨s.line + ls.length, s.row + ls.length, s.ncol, s.names,
      s.rows ++ ls.map fun l => (cells rowNames l).map atof⟩ := by
  induction ls generalizing s with
  | nil => simp [readLines]
  | cons l ls ih =>
    have hl := hlen l List.mem_cons_self
    have hs : strip rowNames l = .ok (cells rowNames l) := by
      unfold strip cells at *
      cases l with
      | nil => cases rowNames <;> rfl
      | cons x xs =>
        cases rowNames with
        | false => rfl
        | true =>
          simp only [if_true, List.tail_cons] at hl ⊢
          rw [if_neg (by cases xs <;> simp_all)]
    have h0 : ¬ s.row = 0 := by omega
    have hline' : decide (s.line > 0) = true := by simpa using hline
    have : readLine atof rowNames colNames s l = .ok ⟨s.line + 1, s.row + 1, s.ncol, s.names,
        s.rows ++ [(cells rowNames l).map atof]⟩ := by
      simp only [readLine, hs, Out.bind, hline', Bool.or_true, if_true, if_neg h0, hl, ne_eq, not_true, and_false,
        if_false, decide_eq_false h0, Bool.false_and, Bool.false_eq_true]
    rw [readLines, this]
    simp only [Out.bind]
    rw [ih ⟨s.line + 1, s.row + 1, s.ncol, s.names, _⟩ (Nat.succ_pos _) (Nat.succ_pos _)
      (fun l hl' => hlen l (List.mem_cons_of_mem _ hl')) hn]
    simp [Nat.add_assoc, Nat.add_comm 1]

/-- C48, partial: a table whose lines all have the same number of cells as the header, at least one, and at
least one line of data, is read as it is: names, and data in their order. Missing: that tables with another
number of names are rejected. -/
theorem c48_read_partial (atof : String → K) (rowNames : Bool) (hd d : List String) (ds : List (List String))
    (hn : 0 < (cells rowNames hd).length)
    (hlen : ∀ l ∈ d :: ds, (cells rowNames l).length = (cells rowNames hd).length) :
    ∃ s, readTable atof rowNames true (hd :: d :: ds) = .ok s ∧ s.names = cells rowNames hd ∧
      s.ncol = (cells rowNames hd).length ∧ s.row = (d :: ds).length ∧
      s.rows = (d :: ds).map fun l => (cells rowNames l).map atof := by
  have hs : ∀ l, 0 < (cells rowNames l).length → strip rowNames l = .ok (cells rowNames l) := by
    intro l hl
    unfold strip cells at *
    cases l with
    | nil => cases rowNames <;> rfl
    | cons x xs =>
      cases rowNames with
      | false => rfl
      | true =>
        simp only [if_true, List.tail_cons] at hl ⊢
        rw [if_neg (by cases xs <;> simp_all)]
  have hd1 := hlen d List.mem_cons_self
  have e1 : readLine atof rowNames true ⟨0, 0, 0, [], []⟩ hd =
      .ok ⟨1, 0, (cells rowNames hd).length, cells rowNames hd, []⟩ := by
    simp only [readLine, hs hd hn, Out.bind]
    simp
  have e2 : readLine atof rowNames true ⟨1, 0, (cells rowNames hd).length, cells rowNames hd, []⟩ d =
      .ok ⟨2, 1, (cells rowNames hd).length, cells rowNames hd, [(cells rowNames d).map atof]⟩ := by
    have h0 : (cells rowNames hd).length ≠ 0 := by omega
    simp only [readLine, hs d (by omega), Out.bind, hd1]
    simp [h0]
  refine ⟨⟨2 + ds.length, 1 + ds.length, (cells rowNames hd).length, cells rowNames hd,
    [(cells rowNames d).map atof] ++ ds.map fun l => (cells rowNames l).map atof⟩, ?_, rfl, rfl,
    by simp [Nat.add_comm], by simp⟩
  · simp only [readTable, readLines, e1, e2, Out.bind]
    rw [readLines_data atof rowNames true ds ⟨2, 1, _, _, _⟩ (Nat.succ_pos _) (Nat.succ_pos _)
      (fun l hl => hlen l (List.mem_cons_of_mem _ hl)) hn]
    simp only
    rw [if_neg (by simp only [not_or]; constructor <;> omega)]

example : ∃ s, readTable (fun x => (x.length : ℚ)) true true [["id", "a", "b"], ["r1", "x", "yy"], ["r2", "", "z"]] = .ok s ∧
    s.names = ["a", "b"] ∧ s.rows = [[1, 2], [0, 1]] := by
  refine ⟨_, rfl, rfl, ?_⟩
  have h1 : "x".length = 1 := by decide
  have h2 : "yy".length = 2 := by decide
  have h3 : "z".length = 1 := by decide
  simp [h1, h2, h3]

/-- C48, violated: a header with any number of names is accepted, whatever the number of cells in the rows. -/
theorem c48_header_violated (atof : String → K) (hd d : List String) (hn : hd ≠ []) (hd1 : d ≠ []) :
    ∃ s, readTable atof false true [hd, d] = .ok s ∧ s.names = hd ∧ s.ncol = d.length ∧ s.rows = [d.map atof] := by
  have hs : ∀ l, strip false l = .ok l := by
    intro l; cases l <;> rfl
  have h1 : hd.length ≠ 0 := fun h => hn (List.length_eq_zero_iff.1 h)
  have h2 : d.length ≠ 0 := fun h => hd1 (List.length_eq_zero_iff.1 h)
  refine ⟨⟨2, 1, d.length, hd, [d.map atof]⟩, ?_, rfl, rfl, rfl⟩
  simp only [readTable, readLines, readLine, hs, Out.bind]
  simp [h1, h2]

example : ∃ s, readTable (fun x => (x.length : ℚ)) false true [["a", "b", "c"], ["x"]] = .ok s ∧ s.names.length = 3 ∧
    s.ncol = 1 := ⟨_, rfl, rfl, rfl⟩

/-- C48, violated: if the file begins with an empty line, the line with the names is counted as a row of
data, which consists of zeros. -/
theorem c48_blank_violated (atof : String → K) (hd d : List String) (hn : hd ≠ []) (hlen : d.length = hd.length) :
    ∃ s, readTable atof false true [[], hd, d] = .ok s ∧ s.names = hd ∧
      s.rows = [hd.map fun _ => 0, d.map atof] := by
  have hs : ∀ l, strip false l = .ok l := by
    intro l; cases l <;> rfl
  have h1 : hd.length ≠ 0 := fun h => hn (List.length_eq_zero_iff.1 h)
  refine ⟨⟨3, 2, hd.length, hd, [hd.map fun _ => 0, d.map atof]⟩, ?_, rfl, rfl⟩
  simp only [readTable, readLines, readLine, hs, Out.bind]
  simp [h1, hlen]

theorem mmsLoop_spec [LinearOrder K] (l : List K) (mn mx sm : K) :
    (mmsLoop l (mn, mx, sm)).1 ≤ mn ∧ (∀ x ∈ l, (mmsLoop l (mn, mx, sm)).1 ≤ x) ∧
    ((mmsLoop l (mn, mx, sm)).1 = mn ∨ (mmsLoop l (mn, mx, sm)).1 ∈ l) ∧
    mx ≤ (mmsLoop l (mn, mx, sm)).2.1 ∧ (∀ x ∈ l, x ≤ (mmsLoop l (mn, mx, sm)).2.1) ∧
    ((mmsLoop l (mn, mx, sm)).2.1 = mx ∨ (mmsLoop l (mn, mx, sm)).2.1 ∈ l) ∧
    (mmsLoop l (mn, mx, sm)).2.2 = sm + l.sum := by
  induction l generalizing mn mx sm with
  | nil => simp [mmsLoop]
  | cons x xs ih =>
    obtain ⟨h1, h2, h3, h4, h5, h6, h7⟩ := ih (if x < mn then x else mn) (if x > mx then x else mx) (sm + x)
    have a1 : (if x < mn then x else mn) ≤ mn := by split <;> [exact le_of_lt ‹_›; exact le_rfl]
    have a2 : (if x < mn then x else mn) ≤ x := by split <;> [exact le_rfl; exact not_lt.1 ‹_›]
    have a3 : mx ≤ (if x > mx then x else mx) := by split <;> [exact le_of_lt ‹_›; exact le_rfl]
    have a4 : x ≤ (if x > mx then x else mx) := by split <;> [exact le_rfl; exact not_lt.1 ‹_›]
    simp only [mmsLoop]
    refine ⟨h1.trans a1, ?_, ?_, a3.trans h4, ?_, ?_, ?_⟩
    · intro y hy
      rcases List.mem_cons.1 hy with rfl | hy
      · exact h1.trans a2
      · exact h2 y hy
    · rcases h3 with h | h
      · rw [h]
        split
        · exact Or.inr List.mem_cons_self
        · exact Or.inl rfl
      · exact Or.inr (List.mem_cons_of_mem _ h)
    · intro y hy
      rcases List.mem_cons.1 hy with rfl | hy
      · exact a4.trans h4
      · exact h5 y hy
    · rcases h6 with h | h
      · rw [h]
        split
        · exact Or.inr List.mem_cons_self
        · exact Or.inl rfl
      · exact Or.inr (List.mem_cons_of_mem _ h)
    · rw [h7, List.sum_cons, add_assoc]

/-- C48: mean, sum and variance of a column are those of its data (in exact arithmetic). -/
theorem c48_mean [LinearOrder K] [CharZero K] (col : List K) (h : col ≠ []) :
    (colStats col).mean = Stats.Spec.mean col ∧ (colStats col).sum = col.sum ∧
    (colStats col).sd2 = Stats.Spec.moment 2 col / (col.length - 1) := by
  have hv := Stats.c36_variance col h
  refine ⟨by simp only [colStats, hv], ?_, by simp only [colStats, hv, Stats.variance]⟩
  have := (mmsLoop_spec col 32767 (-32768) 0).2.2.2.2.2.2
  simp only [colStats, this, zero_add]

/-- C48, partial: minimum and maximum of a column are those of its data if some value is at most 32767 and
some value is at least -32768. -/
theorem c48_minmax_partial [LinearOrder K] (col : List K) (h1 : ∃ x ∈ col, x ≤ 32767) (h2 : ∃ x ∈ col, -32768 ≤ x) :
    IsMin col (colStats col).min ∧ IsMax col (colStats col).max := by
  obtain ⟨a1, a2, a3, a4, a5, a6, _⟩ := mmsLoop_spec col 32767 (-32768) 0
  simp only [colStats]
  refine ⟨⟨?_, a2⟩, ⟨?_, a5⟩⟩
  · rcases a3 with h | h
    · obtain ⟨x, hx, hle⟩ := h1
      have := a2 x hx
      rw [h] at this ⊢
      rw [le_antisymm this hle]
      exact hx
    · exact h
  · rcases a6 with h | h
    · obtain ⟨x, hx, hle⟩ := h2
      have := a5 x hx
      rw [h] at this ⊢
      rw [le_antisymm hle this]
      exact hx
    · exact h

/-- C48, violated: if all values exceed 32767 (as UTM coordinates or pixel counts do), the minimum is
reported as 32767; if all are below -32768, the maximum is reported as -32768. -/
theorem c48_minmax_violated [LinearOrder K] (col : List K) :
    ((∀ x ∈ col, 32767 < x) → (colStats col).min = 32767) ∧
    ((∀ x ∈ col, x < -32768) → (colStats col).max = -32768) := by
  obtain ⟨a1, a2, a3, a4, a5, a6, _⟩ := mmsLoop_spec col 32767 (-32768) 0
  simp only [colStats]
  constructor
  · intro h
    rcases a3 with h' | h'
    · exact h'
    · exact absurd (h _ h') (not_lt.2 a1)
  · intro h
    rcases a6 with h' | h'
    · exact h'
    · exact absurd (h _ h') (not_lt.2 a4)

example : (colStats ([40000, 50000] : List ℚ)).min = 32767 ∧ (colStats ([40000, 50000] : List ℚ)).max = 50000 := by
  refine ⟨(c48_minmax_violated _).1 (by simp; norm_num), ?_⟩
  norm_num [colStats, mmsLoop]

example : (colStats ([3, 1, 2] : List ℚ)).min = 1 ∧ (colStats ([3, 1, 2] : List ℚ)).mean = 2 := by
  constructor <;> norm_num [colStats, mmsLoop, Stats.varLoop, Stats.varRec]

end Verif.Table
