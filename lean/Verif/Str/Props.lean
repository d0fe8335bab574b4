import Mathlib.Tactic.NormNum
import Mathlib.Data.List.Infix
import Verif.Str.Spec
import Verif.Libc.Lemmas

/-!
# Theorems about strings, arrays and paths: C29, C30, C31, C32, C33, C49
-/

namespace Verif.Str

open Spec

/-! ## C29 -/

theorem cstr_append_nul {text rest : List Char} (h : nul ∉ text) : cstr (text ++ nul :: rest) = text := by
  unfold cstr
  rw [List.takeWhile_append_of_pos]
  · simp
  · intro c hc
    simp only [decide_eq_true_eq]
    rintro rfl
    exact h hc

theorem holds_cstr {before after text : List Char} {size : Nat} (h : Holds before after size text)
    (hn : nul ∉ text) : cstr after = text := by
  obtain ⟨-, h2, -, -⟩ := h
  have e : after = text ++ nul :: after.drop (text.length + 1) := by
    conv_lhs => rw [← List.take_append_drop (text.length + 1) after, h2]
    simp
  rw [e]
  exact cstr_append_nul hn

/-- C29: `copy_string` puts exactly the text with its terminator into the first `size` bytes, or
ends the program; the latter exactly if the text does not fit. -/
theorem c29_copy (dst src : List Char) (size : Nat) (h0 : 0 < size) (hs : size ≤ dst.length)
    (hn : nul ∉ src) :
    (src.length < size → ∃ out, copyString dst size src = .ok out ∧ Holds dst out size src) ∧
    (size ≤ src.length → copyString dst size src = .exit) := by
  unfold copyString
  rw [if_neg (by omega)]
  simp only
  rw [if_neg (by omega)]
  have hlen : ((src ++ List.replicate size nul).take size).length = size := by
    simp
  constructor
  · intro hl
    have e : (src ++ List.replicate size nul).take size = src ++ List.replicate (size - src.length) nul := by
      rw [List.take_append, List.take_of_length_le (by omega), List.take_replicate]
      congr 2; omega
    rw [if_neg]
    · refine ⟨_, rfl, ?_, ?_, by omega, ?_⟩
      · simp; omega
      · rw [e, List.append_assoc, List.take_append, List.take_of_length_le (by omega)]
        congr 1
        have : size - src.length = (size - src.length - 1) + 1 := by omega
        rw [this, List.replicate_succ]
        simp
      · rw [List.drop_left' hlen]
    · rw [e, List.getElem?_append_left (by simp; omega), List.getElem?_append_right (by omega)]
      simp [List.getElem?_replicate]
      omega
  · intro hl
    have e : (src ++ List.replicate size nul).take size = src.take size := by
      rw [List.take_append_of_le_length hl]
    rw [if_pos]
    rw [e, List.getElem?_append_left (by simp; omega), List.getElem?_take_of_lt (by omega),
      List.getElem?_eq_getElem (by omega)]
    intro hc
    simp only [Option.some.injEq] at hc
    exact hn (hc ▸ List.getElem_mem _)

/-- C29: `copy_string` is only undefined if the size is wrong or zero. -/
theorem c29_copy_defined (dst src : List Char) (size : Nat) :
    copyString dst size src = .ub ↔ size = 0 ∨ dst.length < size := by
  unfold copyString
  by_cases h1 : size > dst.length
  · simp [h1]
  · by_cases h2 : size = 0
    · simp [h2]
    · simp only [h1, h2, if_false]
      split <;> simp <;> omega

example : copyString "xxxxxxxx".toList 5 "abc".toList = .ok "abc\x00\x00xxx".toList := by decide

example : copyString "xxxxxxxx".toList 3 "abc".toList = .exit := by decide

theorem concat_aux (dst text : List Char) (size : Nat) (h0 : 0 < size) (hs : size ≤ dst.length) :
    (text.length < size → ∃ out, ((snprintf dst size text).bind fun r =>
      if r.2 ≥ size then Out.exit else Out.ok r.1) = .ok out ∧ Holds dst out size text) ∧
    (size ≤ text.length → ((snprintf dst size text).bind fun r =>
      if r.2 ≥ size then Out.exit else Out.ok r.1) = .exit) := by
  unfold snprintf
  rw [if_neg (by omega), if_neg (by omega)]
  simp only [Out.bind]
  constructor
  · intro hl
    rw [if_neg (by omega)]
    have e : text.take (size - 1) = text := List.take_of_length_le (by omega)
    rw [e]
    refine ⟨_, rfl, ?_, ?_, by omega, ?_⟩
    · simp; omega
    · rw [show text ++ nul :: dst.drop (text.length + 1) = (text ++ [nul]) ++ dst.drop (text.length + 1) by simp]
      exact List.take_left' (by simp)
    · rw [show text ++ nul :: dst.drop (text.length + 1) = (text ++ [nul]) ++ dst.drop (text.length + 1) by simp,
        List.drop_append, List.drop_of_length_le (by simp; omega), List.nil_append, List.drop_drop]
      congr 1
      simp
      omega
  · intro hl
    rw [if_pos (by omega)]

/-- C29: `concat_string_2` gives exactly the concatenation, or ends the program. -/
theorem c29_concat2 (dst s1 s2 d : List Char) (size : Nat) (h0 : 0 < size) (hs : size ≤ dst.length) :
    ((s1 ++ d ++ s2).length < size →
      ∃ out, concat2 dst size s1 s2 d = .ok out ∧ Holds dst out size (s1 ++ d ++ s2)) ∧
    (size ≤ (s1 ++ d ++ s2).length → concat2 dst size s1 s2 d = .exit) :=
  concat_aux dst (s1 ++ d ++ s2) size h0 hs

/-- C29: `concat_string_3` gives exactly the concatenation, or ends the program. -/
theorem c29_concat3 (dst s1 s2 s3 d : List Char) (size : Nat) (h0 : 0 < size) (hs : size ≤ dst.length) :
    ((s1 ++ d ++ s2 ++ d ++ s3).length < size →
      ∃ out, concat3 dst size s1 s2 s3 d = .ok out ∧ Holds dst out size (s1 ++ d ++ s2 ++ d ++ s3)) ∧
    (size ≤ (s1 ++ d ++ s2 ++ d ++ s3).length → concat3 dst size s1 s2 s3 d = .exit) :=
  concat_aux dst (s1 ++ d ++ s2 ++ d ++ s3) size h0 hs

example : concat2 "xxxxxx".toList 6 "ab".toList "cd".toList "/".toList = .ok "ab/cd\x00".toList := by
  decide

/-- C29: `fill_string` stores exactly the text; it ends the program for the empty text. -/
theorem c29_fill_string (src : List Char) (hn : nul ∉ src) :
    (src ≠ [] → fillString src = .ok (src ++ [nul])) ∧ (src = [] → fillString src = .exit) := by
  constructor
  · intro hne
    have hl : 0 < src.length := List.length_pos_iff.2 hne
    unfold fillString
    rw [if_neg (by omega)]
    obtain ⟨out, e, h1, h2, -, -⟩ := (c29_copy (List.replicate (src.length + 1) nul) src (src.length + 1)
      (by omega) (by simp) hn).1 (by omega)
    rw [e]
    rw [List.take_of_length_le (by rw [h1]; simp)] at h2
    rw [h2]
  · rintro rfl; rfl

/-- C29: overwriting a part of a text changes exactly this part, or ends the program. -/
theorem c29_overwrite (source replace : List Char) (offset n : Nat) (out : List Char)
    (h : overwritePart source offset replace n = .ok out) :
    out.length = source.length ∧
    ∀ i, out[i]? = if offset ≤ i ∧ i < offset + n then replace[i - offset]? else source[i]? := by
  unfold overwritePart at h
  split at h
  · simp at h
  · split at h
    · simp at h
    · rename_i h1 h2
      simp only [Out.ok.injEq] at h
      have hle : (cstr source).length ≤ source.length := (List.takeWhile_prefix _).length_le
      have hlt : (source.take offset).length = offset := by simp; omega
      have hlr : (replace.take n).length = n := by simp; omega
      subst h
      constructor
      · simp; omega
      · intro i
        split
        · rename_i hi
          rw [List.getElem?_append_left (by simp only [List.length_append, hlt, hlr]; omega),
            List.getElem?_append_right (by omega), hlt, List.getElem?_take_of_lt (by omega)]
        · rename_i hi
          rcases Nat.lt_or_ge i offset with h' | h'
          · rw [List.append_assoc, List.getElem?_append_left (by omega), List.getElem?_take_of_lt h']
          · rw [List.getElem?_append_right (by simp only [List.length_append, hlt, hlr]; omega),
              List.getElem?_drop]
            congr 1
            simp only [List.length_append, hlt, hlr]
            omega

example : overwritePart "abcdef\x00".toList 2 "XYZ".toList 2 = .ok "abXYef\x00".toList := by decide

/-! ## C30 -/

theorem strstr_some {text search : List Char} {k : Nat} (h : strstr text search = some k) :
    FirstOccurrence text search (text.take k) (text.drop (k + search.length)) ∧ k ≤ text.length := by
  induction text generalizing k with
  | nil =>
    rw [strstr] at h
    split at h
    · rename_i hp
      simp only [List.isPrefixOf_iff_prefix, List.prefix_nil] at hp
      subst hp
      simp only [Option.some.injEq] at h
      subst h
      exact ⟨⟨by simp, by simp⟩, by simp⟩
    · simp at h
  | cons c text ih =>
    rw [strstr] at h
    split at h
    · rename_i hp
      rw [List.isPrefixOf_iff_prefix] at hp
      obtain ⟨t, ht⟩ := hp
      simp only [Option.some.injEq] at h
      subst h
      refine ⟨⟨?_, by simp⟩, by simp⟩
      rw [← ht]; simp
    · rename_i hp
      simp only [Option.map_eq_some_iff] at h
      obtain ⟨k', hk, rfl⟩ := h
      obtain ⟨⟨e, hmin⟩, hle⟩ := ih hk
      refine ⟨⟨?_, ?_⟩, by simp; omega⟩
      · rw [List.take_succ_cons, show k' + 1 + search.length = (k' + search.length) + 1 by omega,
          List.drop_succ_cons, List.cons_append, List.cons_append, ← e]
      · intro pre' suf' e'
        cases pre' with
        | nil =>
          exact absurd (List.isPrefixOf_iff_prefix.2 ⟨suf', by simpa using e'.symm⟩) hp
        | cons a pre' =>
          simp only [List.cons_append, List.cons.injEq] at e'
          have := hmin pre' suf' e'.2
          simp only [List.length_take, List.length_cons] at this ⊢
          omega

theorem strstr_none {text search : List Char} (h : strstr text search = none) : NotIn text search := by
  induction text with
  | nil =>
    rw [strstr] at h
    split at h
    · simp at h
    · rename_i hp
      intro pre suf e
      have hs : search = [] := by
        have := congrArg List.length e
        simp at this
        exact List.length_eq_zero_iff.1 (by omega)
      subst hs
      simp at hp
  | cons c text ih =>
    rw [strstr] at h
    split at h
    · simp at h
    · rename_i hp
      simp only [Option.map_eq_none_iff] at h
      intro pre suf e
      cases pre with
      | nil => exact absurd (List.isPrefixOf_iff_prefix.2 ⟨suf, by simpa using e.symm⟩) hp
      | cons a pre =>
        simp only [List.cons_append, List.cons.injEq] at e
        exact ih h pre suf e.2

theorem sizeT_nonneg {x : ℤ} (h0 : 0 ≤ x) (h1 : x < 2 ^ 64) : (sizeT x : ℤ) = x := by
  unfold sizeT
  rw [Int.emod_eq_of_lt h0 (by omega)]
  omega

theorem sizeT_neg {x : ℤ} (h0 : x < 0) (h1 : -2 ^ 63 ≤ x) : 2 ^ 63 ≤ sizeT x := by
  unfold sizeT
  have : x % 18446744073709551616 = x + 18446744073709551616 := by
    rw [← Int.add_emod_right, Int.emod_eq_of_lt] <;> omega
  rw [this]
  omega

/-- C30 (partial): if the new text fits and the search pattern is not longer than text and
replacement together, then precisely the first occurrence is replaced; without an occurrence the
buffer is unchanged. Missing: longer patterns, see `c30_long_pattern_violated`. -/
theorem c30_replace_partial (text pad search replace : List Char) (n : Nat) (hn : nul ∉ text)
    (hlen : (text ++ nul :: pad).length = n) (hnb : n < 2 ^ 62)
    (hr : replace.length < 2 ^ 62) (hs : search.length < 2 ^ 62)
    (hp : search.length ≤ text.length + replace.length)
    (hfit : text.length + replace.length < n + search.length) :
    (∀ pre suf, FirstOccurrence text search pre suf →
      ∃ out, replaceString (text ++ nul :: pad) search replace n = .ok out ∧
        Holds (text ++ nul :: pad) out n (pre ++ replace ++ suf)) ∧
    (NotIn text search →
      replaceString (text ++ nul :: pad) search replace n = .ok (text ++ nul :: pad)) := by
  have ec : cstr (text ++ nul :: pad) = text := cstr_append_nul hn
  have htl : text.length < n := by rw [← hlen]; simp
  have chk : ¬ sizeT ((text.length : ℤ) - search.length + replace.length) ≥ n := by
    have := sizeT_nonneg (x := (text.length : ℤ) - search.length + replace.length) (by omega) (by omega)
    omega
  unfold replaceString
  simp only [ec]
  rw [if_neg chk]
  constructor
  · intro pre suf ⟨e, hmin⟩
    cases hst : strstr text search with
    | none => exact absurd e (strstr_none hst pre suf)
    | some k =>
      obtain ⟨⟨e', hmin'⟩, hk⟩ := strstr_some hst
      have l1 := hmin _ _ e'
      have l2 := hmin' _ _ e
      simp only [List.length_take] at l1 l2
      have hk' : k = pre.length := by
        have : pre.length ≤ text.length := by rw [e]; simp
        omega
      subst hk'
      have t1 : text.take pre.length = pre := by
        conv_lhs => rw [e, List.append_assoc]
        simp
      have t2 : text.drop (pre.length + search.length) = suf := by
        conv_lhs => rw [e]
        exact List.drop_left' (by simp)
      simp only [t1, t2]
      have hl := congrArg List.length e
      simp only [List.length_append] at hl
      rw [if_neg (by simp only [List.length_append, List.length_cons, List.length_nil, hlen] at *; omega)]
      refine ⟨_, rfl, ?_, ?_, ?_, ?_⟩
      · simp only [List.length_append, List.length_cons, List.length_nil, List.length_drop] at *
        omega
      · exact List.take_left' (by simp; omega)
      · simp only [List.length_append] at *
        omega
      · rw [List.drop_of_length_le, List.drop_of_length_le]
        · rw [hlen]
        · simp only [List.length_append, List.length_cons, List.length_nil, List.length_drop] at *
          omega
  · intro hnot
    cases hst : strstr text search with
    | none => rfl
    | some k => exact absurd (strstr_some hst).1.1 (hnot _ _)

example : replaceString ("L2_BOA.tif".toList ++ nul :: "junk".toList) "BOA".toList "QAI".toList 15 =
    .ok ("L2_QAI.tif".toList ++ nul :: "junk".toList) := by decide +kernel

/-- C30 does not hold for long patterns: a pattern that is longer than text and replacement
together cannot occur, but the length check wraps around and ends the program. -/
theorem c30_long_pattern_violated (text pad search replace : List Char) (n : Nat) (hn : nul ∉ text)
    (hnb : n < 2 ^ 62) (hs : search.length < 2 ^ 62)
    (hp : text.length + replace.length < search.length) :
    NotIn text search ∧ replaceString (text ++ nul :: pad) search replace n = .exit := by
  constructor
  · intro pre suf e
    have := congrArg List.length e
    simp only [List.length_append] at this
    omega
  · unfold replaceString
    simp only [cstr_append_nul hn]
    rw [if_pos]
    have := sizeT_neg (x := (text.length : ℤ) - search.length + replace.length) (by omega) (by omega)
    omega

example : replaceString ("a.tif".toList ++ [nul]) "SENTINEL".toList "X".toList 6 = .exit := by decide +kernel

/-- C30: the buffer never overflows: the result is either the end of the program or a buffer of
the same size. -/
theorem c30_no_overflow (text pad search replace : List Char) (n : Nat) (hn : nul ∉ text)
    (hlen : (text ++ nul :: pad).length = n) (hnb : n < 2 ^ 62)
    (hr : replace.length < 2 ^ 62) (hs : search.length < 2 ^ 62) :
    replaceString (text ++ nul :: pad) search replace n = .exit ∨
    ∃ out, replaceString (text ++ nul :: pad) search replace n = .ok out ∧ out.length = n := by
  by_cases hp : search.length ≤ text.length + replace.length
  · by_cases hfit : text.length + replace.length < n + search.length
    · right
      obtain ⟨h1, h2⟩ := c30_replace_partial text pad search replace n hn hlen hnb hr hs hp hfit
      by_cases hnot : NotIn text search
      · exact ⟨_, h2 hnot, hlen⟩
      · cases hst : strstr text search with
        | none => exact absurd (strstr_none hst) hnot
        | some k =>
          obtain ⟨out, e, hh⟩ := h1 _ _ (strstr_some hst).1
          exact ⟨out, e, by rw [hh.1, hlen]⟩
    · left
      unfold replaceString
      simp only [cstr_append_nul hn]
      have htl : text.length < n := by rw [← hlen]; simp
      have := sizeT_nonneg (x := (text.length : ℤ) - search.length + replace.length) (by omega) (by omega)
      rw [if_pos (by omega)]
  · left
    exact (c30_long_pattern_violated text pad search replace n hn hnb hs (by omega)).2

end Verif.Str
