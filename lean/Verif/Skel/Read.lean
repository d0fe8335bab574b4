import Verif.Skel.Props

/-!
# All programs read their skeletons (C232), and its defaults (C233)
-/

namespace Verif.Skel

open Verif.Str (Out)
open Verif.Param (Par Kind Val parseFile)
open Verif.Param.Spec

theorem behind_eq (w post : List Char) (hw : ∀ c ∈ w, Rules.isSpace c = false) (hne : w ≠ [])
    (hpost : ∀ c, post.head? = some c → Rules.isSpace c = true) : behind (w ++ post) = post := by
  have h1 : (w ++ post).dropWhile Rules.isSpace = w ++ post := by
    cases w with
    | nil => exact absurd rfl hne
    | cons c w => simp [hw c (by simp)]
  unfold behind
  rw [h1, List.dropWhile_append_of_pos (fun c hc => by simp [hw c hc])]
  cases post with
  | nil => simp
  | cons c post => simp [hpost c rfl]

/-- Start and end tag of a module are words. -/
theorem tags_ok (m : Mod) : (∀ c ∈ startTag m.tag, Rules.isSpace c = false) ∧ startTag m.tag ≠ [] ∧
    words (content (startTag m.tag)) = [startTag m.tag] ∧ '\n' ∉ startTag m.tag ∧ (startTag m.tag).length ≤ 100 ∧
    words (content (endTag m.tag)) = [endTag m.tag] ∧ '\n' ∉ endTag m.tag ∧ (endTag m.tag).length ≤ 100 := by
  cases m <;> decide +kernel

/-- Submodule and input of the modules of force-higher-level. -/
def Mod.sub : Mod → Option (Rules.Module × Rules.Input × Rules.Input)
  | .level2 => none | .train => none
  | .level3 => some (.bap, .ard, .none) | .tsa => some (.tsa, .ard, .none) | .cso => some (.cso, .qai, .none)
  | .udf => some (.udf, .ard, .none) | .cfimp => some (.cfi, .ard, .con) | .l2imp => some (.l2i, .ard, .ard)
  | .ml => some (.ml, .ftr, .none) | .smp => some (.smp, .ftr, .none) | .txt => some (.txt, .ftr, .none)
  | .lsm => some (.lsm, .ftr, .none) | .lib => some (.lib, .ftr, .none)

theorem skeleton_eq (tag : String) (es : List Entry) (note : Nat → List (List Char)) (val : Nat → List Char) :
    skeleton tag es note val = startTag tag ++ Param.fileText ([] :: body note val 0 es ++ [[], endTag tag]) ∧
    skeleton tag es note val = Param.fileText (startTag tag :: body note val 0 es ++ [[], endTag tag]) := by
  constructor
  · unfold skeleton fileLines Param.fileText
    simp
  · rfl

theorem count_eq (m : Mod) (note : Nat → List (List Char)) (val : Nat → List Char) (he : Spec.Edited (entries m) note val)
    (key : String) (x : List Char) (hx : x = [] ∨ x = startTag m.tag) (n : Nat) (hn : n = (slots key 0 (entries m)).length)
    (hp : 0 < n) (h1 : startTag m.tag ≠ key.toList) (h2 : endTag m.tag ≠ key.toList) :
    count (Param.fileText (x :: body note val 0 (entries m) ++ [[], endTag m.tag])) key = .ok n := by
  obtain ⟨-, hc, -⟩ := fits_spec _ _ (fits_all m)
  obtain ⟨-, -, t3, t4, t5, t6, t7, t8⟩ := tags_ok m
  have hv : ∀ j, 0 ≤ j → j < 0 + (entries m).length → Spec.Value (val j) := fun j _ hj => he.values j (by omega)
  have hw : ∀ l ∈ [x, [], endTag m.tag], ¬ ((words (content l)).head? = some key.toList) := by
    intro l hl
    simp only [List.mem_cons, List.not_mem_nil, or_false] at hl
    have hnil : ¬ ((words (content [])).head? = some key.toList) := by
      rw [show content [] = [] from rfl, words_nil]; simp
    rcases hl with rfl | rfl | rfl
    · rcases hx with rfl | rfl
      · exact hnil
      · rw [t3]; simpa using h1
    · exact hnil
    · rw [t6]; simpa using h2
  have hcount : (x :: body note val 0 (entries m) ++ [[], endTag m.tag]).countP
      (fun l => (words (content l)).head? = some key.toList) = n := by
    rw [hn, ← count_body note val key (entries m) 0 hc he.notes hv, List.cons_append, List.countP_cons, List.countP_append]
    rw [List.countP_eq_zero (l := [[], endTag m.tag]) |>.2 (fun l hl => by simpa using hw l (List.mem_cons_of_mem _ hl))]
    have := hw x (by simp)
    simp [this]
  have hl : ∀ l ∈ x :: body note val 0 (entries m) ++ [[], endTag m.tag], '\n' ∉ l ∧ l.length + 1 < 1024 := by
    intro l hl
    simp only [List.cons_append, List.mem_cons, List.mem_append, List.not_mem_nil, or_false] at hl
    rcases hl with rfl | hl | rfl | rfl
    · rcases hx with rfl | rfl
      · simp
      · exact ⟨t4, by omega⟩
    · have := body_lines note val (entries m) 0 hc he.notes hv l hl
      exact ⟨this.1, by omega⟩
    · simp
    · exact ⟨t7, by omega⟩
  unfold count
  rw [Param.c34_prescreen _ _ hl n hcount.symm, if_neg (by omega)]

theorem feature_tags (m : Mod) : (startTag m.tag ≠ "INPUT_FEATURE".toList ∧ endTag m.tag ≠ "INPUT_FEATURE".toList) ∧
    (startTag m.tag ≠ "FILE_MODEL".toList ∧ endTag m.tag ≠ "FILE_MODEL".toList) := by
  cases m <;> decide +kernel

set_option maxRecDepth 100000 in
theorem read_skeleton (m : Mod) (f d : ℚ → ℚ) (note : Nat → List (List Char)) (val : Nat → List Char)
    (he : Spec.Edited (entries m) note val) : ∃ ps, m.read f d (skeleton m.tag (entries m) note val) = .ok ps ∧
      Result f d (m.regs m.features m.models) (entries m) val ps := by
  obtain ⟨t1, t2, t3, t4, t5, t6, t7, t8⟩ := tags_ok m
  obtain ⟨e1, e2⟩ := skeleton_eq m.tag (entries m) note val
  have hpost : ∀ c, (Param.fileText ([] :: body note val 0 (entries m) ++ [[], endTag m.tag])).head? = some c →
      Rules.isSpace c = true := by
    intro c hc
    have : c = '\n' := by
      unfold Param.fileText at hc
      simp at hc
      exact hc.symm
    rw [this]; decide
  have hword : Rules.word (skeleton m.tag (entries m) note val) = startTag m.tag := by
    rw [e1]
    have := Rules.word_eq [] (startTag m.tag) _ (by simp) t1 t2 hpost
    simpa using this
  have hbehind : behind (skeleton m.tag (entries m) note val) =
      Param.fileText ([] :: body note val 0 (entries m) ++ [[], endTag m.tag]) := by
    rw [e1]; exact behind_eq _ _ t1 t2 hpost
  have c1 := core f d _ _ (fits_all m) note val he [] (endTag m.tag) (.inr rfl) (by simp) t6 ⟨t7, t8⟩
  have c2 := core f d _ _ (fits_all m) note val he (startTag m.tag) (endTag m.tag) (.inl t3) ⟨t4, t5⟩ t6 ⟨t7, t8⟩
  obtain ⟨⟨f1, f2⟩, f3, f4⟩ := feature_tags m
  -- the two programs with one kind of file
  have one : ∀ (tag : String) (regs : List Reg), startTag m.tag = tag.toList → regs = m.regs m.features m.models →
      ∃ ps, readOne tag regs f d (skeleton m.tag (entries m) note val) = .ok ps ∧
        Result f d (m.regs m.features m.models) (entries m) val ps := by
    intro tag regs h1 h2
    unfold readOne
    rw [hword, if_neg t2, if_neg (by omega), if_pos h1, hbehind, h2]
    exact c1
  -- force-higher-level
  have sub : ∀ x, Rules.detect (String.ofList (startTag m.tag)) = some x →
      Rules.submodule (skeleton m.tag (entries m) note val) = .ok x := by
    intro x hx
    unfold Rules.submodule
    rw [hword, if_neg t2, if_neg (by omega), hx]
  have plain : ∀ x, Rules.detect (String.ofList (startTag m.tag)) = some x → x.2.1 ≠ .ftr →
      registry x.1 x.2.1 0 0 = m.regs m.features m.models →
      ∃ ps, readHigher f d (skeleton m.tag (entries m) note val) = .ok ps ∧
        Result f d (m.regs m.features m.models) (entries m) val ps := by
    intro x h1 h2 h3
    unfold readHigher
    rw [sub x h1]
    simp only [Out.bind]
    rw [if_neg h2, hbehind, h3]
    exact c1
  have ftr : ∀ x, Rules.detect (String.ofList (startTag m.tag)) = some x → x.2.1 = .ftr → 0 < m.features →
      (x.1 = .ml → 0 < m.models) →
      registry x.1 .ftr m.features (if x.1 = .ml then m.models else 0) = m.regs m.features m.models →
      ∃ ps, readHigher f d (skeleton m.tag (entries m) note val) = .ok ps ∧
        Result f d (m.regs m.features m.models) (entries m) val ps := by
    intro x h1 h2 h3 h4 h5
    unfold readHigher
    rw [sub x h1]
    simp only [Out.bind]
    rw [if_pos h2, hbehind, count_eq m note val he "INPUT_FEATURE" [] (.inl rfl) m.features rfl h3 f1 f2]
    simp only
    by_cases hm : x.1 = .ml
    · rw [if_pos hm] at h5 ⊢
      rw [e2, count_eq m note val he "FILE_MODEL" (startTag m.tag) (.inr rfl) m.models rfl (h4 hm) f3 f4]
      simp only
      rw [h2, h5]
      exact c2
    · rw [if_neg hm] at h5 ⊢
      simp only
      rw [h2, h5, e2]
      exact c2
  cases m
  case level2 => exact one "++PARAM_LEVEL2_START++" regLower (by decide +kernel) rfl
  case train => exact one "++PARAM_TRAIN_START++" regTrain (by decide +kernel) rfl
  case level3 => exact plain (.bap, .ard, .none) (by decide +kernel) (by decide) rfl
  case tsa => exact plain (.tsa, .ard, .none) (by decide +kernel) (by decide) rfl
  case cso => exact plain (.cso, .qai, .none) (by decide +kernel) (by decide) rfl
  case udf => exact plain (.udf, .ard, .none) (by decide +kernel) (by decide) rfl
  case cfimp => exact plain (.cfi, .ard, .con) (by decide +kernel) (by decide) rfl
  case l2imp => exact plain (.l2i, .ard, .ard) (by decide +kernel) (by decide) rfl
  case ml => exact ftr (.ml, .ftr, .none) (by decide +kernel) rfl (by decide +kernel) (fun _ => by decide +kernel) rfl
  case smp => exact ftr (.smp, .ftr, .none) (by decide +kernel) rfl (by decide +kernel) (fun h => by cases h) rfl
  case txt => exact ftr (.txt, .ftr, .none) (by decide +kernel) rfl (by decide +kernel) (fun h => by cases h) rfl
  case lsm => exact ftr (.lsm, .ftr, .none) (by decide +kernel) rfl (by decide +kernel) (fun h => by cases h) rfl
  case lib => exact ftr (.lib, .ftr, .none) (by decide +kernel) rfl (by decide +kernel) (fun h => by cases h) rfl

/-- C232: a user takes the skeleton of any module, with or without its comments, and replaces the values by
others. The program for this module then reads the file; it has one parameter for each entry (`entryOf` is
injective, and the numbers are the same), every parameter is set, and it has the value that stands in the line of
its own entry. Parameters with the same name (features, models) keep the order of the lines. -/
theorem c232_skeleton (m : Mod) (f d : ℚ → ℚ) (note : Nat → List (List Char)) (val : Nat → List Char)
    (he : Spec.Edited (entries m) note val) :
    ∃ ps, m.read f d (skeleton m.tag (entries m) note val) = .ok ps ∧ ps.length = (entries m).length ∧
    ∃ entryOf : Nat → Nat,
      (∀ j p, ps[j]? = some p → ∃ e, (entries m)[entryOf j]? = some e ∧ p.name = e.key.toList ∧ p.set = true ∧
        ReadAs p.kind p.vector (words (val (entryOf j))) p.values) ∧
      (∀ i j, i < ps.length → j < ps.length → entryOf i = entryOf j → i = j) ∧
      (∀ i j p q, ps[i]? = some p → ps[j]? = some q → i < j → p.name = q.name → entryOf i < entryOf j) := by
  obtain ⟨ps, h1, h2, h3⟩ := read_skeleton m f d note val he
  have fit := fits_all m
  have hlen := (fits_spec _ _ fit).1
  refine ⟨ps, h1, h2, place (m.regs m.features m.models) (entries m), ?_, ?_, ?_⟩
  · intro j p hp
    obtain ⟨r, hr, n, -, -, -, s, ra⟩ := h3 j p hp
    obtain ⟨e, x1, x2⟩ := (place_spec _ _ fit j r hr).2
    exact ⟨e, x1, by rw [n, x2], s, ra⟩
  · intro i j hi hj hij
    exact place_inj _ _ fit i j _ _ (List.getElem?_eq_getElem (by omega)) (List.getElem?_eq_getElem (by omega)) hij
  · intro i j p q hp hq hij hn
    obtain ⟨r, hr, nr, -⟩ := h3 i p hp
    obtain ⟨s, hs, ns, -⟩ := h3 j q hq
    exact place_lt _ _ fit i j r s hr hs hij (String.toList_inj.1 (by rw [← nr, ← ns, hn]))

end Verif.Skel
