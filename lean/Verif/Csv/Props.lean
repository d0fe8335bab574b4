import Mathlib.Tactic.Linarith
import Mathlib.Tactic.NormNum
import Mathlib.Tactic.Ring
import Mathlib.Data.List.Infix
import Mathlib.Data.List.Forall2
import Mathlib.Data.List.GetD
import Verif.Csv.Model
import Verif.Libc.Lemmas
import Verif.Param.Lemmas
import Verif.Table.Props
import Verif.Tools.Props

/-!
# Property C280: written tables read back
-/

namespace Verif.Csv

open Verif.Str (Out)

/-! ## Specification -/

/-- A name that can be an item of a table: not empty, without blank, comma, tab and end of line. -/
def Spec.Word (s : List Char) : Prop := s ≠ [] ∧ ∀ c ∈ s, c ∉ [' ', ',', '\t', '\r', '\n']

/-- The rows that are written: all, or those that are not masked. -/
def Spec.kept (skip : Bool) (rows : List (List ℚ)) (mask : List Bool) : List (List ℚ) :=
  if skip then ((rows.zip mask).filter fun r => r.2).map fun r => r.1 else rows

/-- `x` is what is read for `v`: the closest number with two decimals, rounded to a double by `rd`. -/
def Spec.Close (rd : ℚ → ℚ) (v x : ℚ) : Prop := ∃ k : Int, x = rd ((k : ℚ) / 100) ∧ |(k : ℚ) / 100 - v| ≤ 1 / 200

/-! ## Numbers -/

theorem decVal_cents (n : Nat) : Libc.decVal (Libc.decDigits (n / 100) ++ '.' :: Libc.padDigits 2 n) = (n : ℚ) / 100 := by
  unfold Libc.decVal
  have h1 := Libc.takeWhile_digits (Libc.decDigits (n / 100)) ('.' :: Libc.padDigits 2 n) (Libc.decDigits_isDigit _)
    (by intro c hc; simp at hc; subst hc; decide)
  have h2 := Libc.dropWhile_digits (Libc.decDigits (n / 100)) ('.' :: Libc.padDigits 2 n) (Libc.decDigits_isDigit _)
    (by intro c hc; simp at hc; subst hc; decide)
  have h3 := Libc.takeWhile_digits (Libc.padDigits 2 n) [] (Libc.padDigits_isDigit _ _) (by simp)
  rw [List.append_nil] at h3
  rw [h1, h2]
  simp only [h3, Libc.natVal_decDigits, Libc.natVal_padDigits, Libc.padDigits_length]
  have h4 : n = 100 * (n / 100) + n % 100 := (Nat.div_add_mod n 100).symm
  have h5 : (n : ℚ) = 100 * ((n / 100 : Nat) : ℚ) + ((n % 100 : Nat) : ℚ) := by exact_mod_cast h4
  rw [h5]
  have e : (10 : Nat) ^ 2 = 100 := by norm_num
  rw [e]
  norm_num
  ring

theorem atof_fmt2 (rd : ℚ → ℚ) (v : ℚ) : Libc.atof rd (fmt2 v) =
    rd ((if v < 0 then -1 else 1) * (((Libc.roundEven (|v| * 100)).toNat : ℚ) / 100)) := by
  unfold fmt2
  simp only []
  generalize (Libc.roundEven (|v| * 100)).toNat = n
  obtain ⟨c, s, hcs⟩ := List.exists_cons_of_ne_nil (Libc.decDigits_ne_nil (n / 100))
  have hc : c.isDigit = true := Libc.decDigits_isDigit (n / 100) c (by rw [hcs]; simp)
  have key := decVal_cents n
  by_cases hv : v < 0
  · rw [if_pos hv, if_pos hv]
    unfold Libc.atof
    have : (['-'] ++ (Libc.decDigits (n / 100) ++ '.' :: Libc.padDigits 2 n)).dropWhile Date.isSpace =
        '-' :: (Libc.decDigits (n / 100) ++ '.' :: Libc.padDigits 2 n) := by
      simp [Date.isSpace]
    rw [this]
    simp only [key]; congr 1; ring
  · rw [if_neg hv, if_neg hv, List.nil_append]
    unfold Libc.atof
    have : (Libc.decDigits (n / 100) ++ '.' :: Libc.padDigits 2 n).dropWhile Date.isSpace =
        Libc.decDigits (n / 100) ++ '.' :: Libc.padDigits 2 n := by
      rw [hcs, List.cons_append, List.dropWhile_cons]; simp [Libc.digit_not_space hc]
    rw [this]
    split
    · rename_i cs heq
      rw [hcs] at heq; simp only [List.cons_append, List.cons.injEq] at heq
      exfalso; rw [heq.1] at hc; revert hc; decide
    · rename_i cs heq
      rw [hcs] at heq; simp only [List.cons_append, List.cons.injEq] at heq
      exfalso; rw [heq.1] at hc; revert hc; decide
    · rw [key]; congr 1; ring

theorem roundEven_close (q : ℚ) : |(Libc.roundEven q : ℚ) - q| ≤ 1 / 2 := by
  unfold Libc.roundEven
  simp only []
  have h1 : ((⌊q⌋ : Int) : ℚ) ≤ q := Int.floor_le q
  have h2 : q < (⌊q⌋ : Int) + 1 := Int.lt_floor_add_one q
  rw [abs_le]
  split
  · constructor <;> linarith
  · split
    · push_cast; constructor <;> linarith
    · split
      · constructor <;> linarith
      · push_cast; constructor <;> linarith

theorem roundEven_nonneg (q : ℚ) (h : 0 ≤ q) : 0 ≤ Libc.roundEven q := by
  unfold Libc.roundEven
  simp only []
  have : 0 ≤ ⌊q⌋ := Int.floor_nonneg.2 h
  split
  · exact this
  · split
    · omega
    · split <;> omega

/-- What is read for a printed number. -/
theorem atof_close (rd : ℚ → ℚ) (v : ℚ) : Spec.Close rd v (Libc.atof rd (fmt2 v)) := by
  rw [atof_fmt2]
  have hn := roundEven_nonneg (|v| * 100) (by positivity)
  have hc := roundEven_close (|v| * 100)
  generalize Libc.roundEven (|v| * 100) = r at hn hc ⊢
  have hr : ((r.toNat : ℚ)) = (r : ℚ) := by
    have : ((r.toNat : Int) : ℚ) = (r : ℚ) := by rw [Int.toNat_of_nonneg hn]
    exact_mod_cast this
  rw [hr]
  rw [abs_le] at hc
  by_cases hv : v < 0
  · rw [abs_of_neg hv] at hc
    refine ⟨-r, by rw [if_pos hv]; push_cast; congr 1; ring, ?_⟩
    push_cast
    rw [abs_le]
    constructor <;> linarith [hc.1, hc.2]
  · rw [abs_of_nonneg (not_lt.1 hv)] at hc
    refine ⟨r, by rw [if_neg hv, one_mul], ?_⟩
    rw [abs_le]
    constructor <;> linarith [hc.1, hc.2]

theorem fmt2_word (v : ℚ) : Spec.Word (fmt2 v) := by
  refine ⟨by unfold fmt2; simp, ?_⟩
  have key : ∀ c ∈ fmt2 v, c.isDigit = true ∨ c = '-' ∨ c = '.' := by
    intro c hc
    unfold fmt2 at hc
    simp only [List.mem_append, List.mem_cons] at hc
    rcases hc with hc | hc | hc | hc
    · split at hc
      · simp at hc; exact Or.inr (Or.inl hc)
      · simp at hc
    · exact Or.inl (Libc.decDigits_isDigit _ c hc)
    · exact Or.inr (Or.inr hc)
    · exact Or.inl (Libc.padDigits_isDigit _ _ c hc)
  intro c hc hm
  rcases key c hc with h | h | h
  · simp only [List.mem_cons, List.not_mem_nil, or_false] at hm
    rcases hm with hm | hm | hm | hm | hm <;> subst hm <;> revert h <;> decide
  · subst h; revert hm; decide
  · subst h; revert hm; decide

/-! ## Lines -/

/-- A line without its end. -/
def join (sep : List Char) : List (List Char) → List Char
  | [] => []
  | [c] => c
  | c :: cs => c ++ sep ++ join sep cs

theorem items_eq (sep : List Char) (cs : List (List Char)) : items sep cs = join sep cs ++ ['\n'] := by
  induction cs with
  | nil => rfl
  | cons c cs ih =>
    cases cs with
    | nil => rfl
    | cons d ds =>
      show c ++ sep ++ items sep (d :: ds) = (c ++ sep ++ join sep (d :: ds)) ++ ['\n']
      rw [ih]
      simp

theorem items_cons (sep c : List Char) (cs : List (List Char)) (h : cs ≠ []) :
    c ++ sep ++ items sep cs = items sep (c :: cs) := by
  obtain ⟨d, ds, rfl⟩ := List.exists_cons_of_ne_nil h
  rfl

theorem tokens_join (sep : List Char) (hs : ∀ c ∈ sep, isSep c = true) (hne : sep ≠ []) (cs : List (List Char))
    (hw : ∀ c ∈ cs, Spec.Word c) (pre : List Char) (hp : ∀ c ∈ pre, isSep c = true) :
    Param.tokens isSep (pre ++ join sep cs) = cs := by
  have word : ∀ w : List Char, Spec.Word w → ∀ c ∈ w, isSep c = false := by
    intro w h c hc
    have := h.2 c hc
    unfold isSep
    simp only [List.mem_cons, List.not_mem_nil, or_false, not_or] at this
    simp [this.1, this.2.1, this.2.2.1]
  induction cs generalizing pre with
  | nil =>
    apply Param.tokens_none
    unfold Libc.strtok
    have : (pre ++ join sep []).dropWhile isSep = [] := by
      rw [List.dropWhile_eq_nil_iff]
      simpa [join] using hp
    rw [this]
  | cons c cs ih =>
    have hc := hw c List.mem_cons_self
    cases cs with
    | nil =>
      have e := Libc.strtok_end isSep pre c hp (word c hc) hc.1
      rw [show join sep [c] = c from rfl, Param.tokens_some e]
      congr 1
      exact Param.tokens_none rfl
    | cons d ds =>
      obtain ⟨s, ss, rfl⟩ := List.exists_cons_of_ne_nil hne
      have e := Libc.strtok_cons isSep pre c (ss ++ join (s :: ss) (d :: ds)) hp (word c hc) hc.1 s (hs s List.mem_cons_self)
      have q : pre ++ join (s :: ss) (c :: d :: ds) = pre ++ (c ++ s :: (ss ++ join (s :: ss) (d :: ds))) := by
        show pre ++ (c ++ (s :: ss) ++ join (s :: ss) (d :: ds)) = _
        simp
      rw [q, Param.tokens_some e]
      congr 1
      exact ih (fun x hx => hw x (List.mem_cons_of_mem _ hx)) ss (fun x hx => hs x (List.mem_cons_of_mem _ hx))

theorem join_chars (sep : List Char) (hs : ∀ c ∈ sep, isSep c = true) (cs : List (List Char))
    (hw : ∀ c ∈ cs, Spec.Word c) : ∀ c ∈ join sep cs, c ≠ '\n' ∧ c ≠ '\r' := by
  have sepc : ∀ c ∈ sep, c ≠ '\n' ∧ c ≠ '\r' := by
    intro c hc
    have := hs c hc
    constructor <;> (rintro rfl; revert this; decide)
  have word : ∀ w : List Char, Spec.Word w → ∀ c ∈ w, c ≠ '\n' ∧ c ≠ '\r' := by
    intro w h c hc
    have := h.2 c hc
    constructor <;> (rintro rfl; revert this; decide)
  induction cs with
  | nil => intro c hc; exact absurd hc List.not_mem_nil
  | cons x cs ih =>
    have hx := word x (hw x List.mem_cons_self)
    have ih := ih fun y hy => hw y (List.mem_cons_of_mem _ hy)
    cases cs with
    | nil => exact hx
    | cons d ds =>
      intro c hc
      have hc : c ∈ x ++ sep ++ join sep (d :: ds) := hc
      rw [List.mem_append, List.mem_append] at hc
      rcases hc with (hc | hc) | hc
      · exact hx c hc
      · exact sepc c hc
      · exact ih c hc

/-- A text made of lines is cut into the items of the lines. -/
theorem cut_lines (sep : List Char) (hs : ∀ c ∈ sep, isSep c = true) (hne : sep ≠ []) (L : List (List (List Char)))
    (hw : ∀ l ∈ L, ∀ c ∈ l, Spec.Word c) (hl : ∀ l ∈ L, (join sep l).length < 65535) :
    cut (L.flatMap (items sep)) = L.map fun l => l.map String.ofList := by
  have e : L.flatMap (items sep) = (L.map (join sep)).flatMap fun l => l ++ ['\n'] := by
    rw [List.flatMap_map]
    congr 1
    funext l
    exact items_eq sep l
  unfold cut
  rw [e, Libc.fgetsAll_lines 65536 (L.map (join sep)) (by
    intro l hl'
    rw [List.mem_map] at hl'
    obtain ⟨k, hk, rfl⟩ := hl'
    have := hl k hk
    exact ⟨fun h => (join_chars sep hs k (hw k hk) _ h).1 rfl, by omega⟩), List.map_map, List.map_map]
  apply List.map_congr_left
  intro l hl'
  have c1 : Libc.cutAt (fun c => c = '\r' || c = '\n') (join sep l ++ ['\n']) = join sep l := by
    apply Libc.cutAt_line
    · intro c hc
      have := join_chars sep hs l (hw l hl') c hc
      simp [this.1, this.2]
    · simp
  have c2 := tokens_join sep hs hne l (hw l hl') [] (by simp)
  rw [List.nil_append] at c2
  simp only [Function.comp_apply]
  rw [c1, c2]

/-! ## The whole table -/

/-- The items of a row. -/
def cellsOf (t : Tab) (r : Nat) : List (List Char) :=
  (match t.rowNames with
    | none => []
    | some ns => [ns.getD r []]) ++ (t.rows.getD r []).map fmt2

/-- The items of the first line. -/
def headOf (t : Tab) (names : List (List Char)) : List (List Char) :=
  (if t.rowNames.isSome then ["rowname".toList] else []) ++ names

/-- The numbers of the rows that are written. -/
def keptIx (skip : Bool) (t : Tab) : List Nat :=
  (List.range t.rows.length).filter fun r => !(skip && !t.mask.getD r false)

theorem flatMap_skip {α β : Type} (p : α → Bool) (f : α → List β) (l : List α) :
    l.flatMap (fun a => if p a then [] else f a) = (l.filter fun a => !p a).flatMap f := by
  induction l with
  | nil => rfl
  | cons a l ih =>
    rw [List.flatMap_cons, ih]
    by_cases h : p a = true
    · simp [h]
    · simp [h]

theorem flatMap_congr_mem {α β : Type} (f g : α → List β) (l : List α) (h : ∀ a ∈ l, f a = g a) : l.flatMap f = l.flatMap g := by
  induction l with
  | nil => rfl
  | cons a l ih =>
    rw [List.flatMap_cons, List.flatMap_cons, h a List.mem_cons_self, ih fun b hb => h b (List.mem_cons_of_mem _ hb)]

theorem kept_eq (skip : Bool) (t : Tab) (hm : t.mask.length = t.rows.length) :
    (keptIx skip t).map (fun r => t.rows.getD r []) = Spec.kept skip t.rows t.mask := by
  unfold keptIx Spec.kept
  cases skip
  · simp only [Bool.false_and, Bool.not_false, List.filter_true, Bool.false_eq_true, if_false]
    apply List.ext_getElem
    · simp
    · intro i h1 h2
      rw [List.getElem_map, List.getElem_range, List.getD_eq_getElem _ _ h2]
  · simp only [Bool.true_and, Bool.not_not, if_true]
    generalize t.rows = rows at *
    generalize t.mask = mask at *
    induction rows generalizing mask with
    | nil => simp
    | cons x xs ih =>
      cases mask with
      | nil => simp at hm
      | cons b bs =>
        have ih := ih bs (by simpa using hm)
        rw [List.length_cons, List.range_succ_eq_map, List.zip_cons_cons]
        cases b
        · simp only [List.filter_cons, List.getD_cons_zero, Bool.false_eq_true, if_false, List.filter_map, List.map_map]
          rw [← ih]
          congr 1
        · simp only [List.filter_cons, List.getD_cons_zero, if_true, List.map_cons, List.filter_map, List.map_map]
          rw [← ih]
          congr 1

theorem write_eq (sep : List Char) (skip : Bool) (t : Tab) (names : List (List Char)) (hc : t.colNames = some names)
    (hn : names ≠ []) (hr : ∀ r ∈ t.rows, r.length = names.length) :
    writeTable sep skip t = (headOf t names :: (keptIx skip t).map (cellsOf t)).flatMap (items sep) := by
  unfold writeTable
  rw [List.flatMap_cons]
  congr 1
  · unfold header headOf
    rw [hc]
    dsimp only
    split
    · rw [items_cons _ _ _ hn]; rfl
    · rfl
  · rw [List.flatMap_map]
    have : (List.range t.rows.length).flatMap (row sep skip t) = (List.range t.rows.length).flatMap
        (fun r => if (skip && !t.mask.getD r false) then [] else items sep (cellsOf t r)) := by
      apply flatMap_congr_mem
      intro r hr'
      rw [List.mem_range] at hr'
      unfold row cellsOf
      split
      · rfl
      · have hl : ((t.rows.getD r []).map fmt2) ≠ [] := by
          rw [List.getD_eq_getElem _ _ hr']
          have := hr _ (List.getElem_mem hr')
          intro h
          have h0 := congrArg List.length h
          rw [List.length_map, this] at h0
          exact hn (List.length_eq_zero_iff.1 h0)
        cases t.rowNames with
        | none => rfl
        | some ns =>
          dsimp only
          rw [items_cons _ _ _ hl]; rfl
    rw [this, flatMap_skip]
    rfl

theorem read_core (rd : ℚ → ℚ) (sep : List Char) (hs : ∀ c ∈ sep, isSep c = true) (hne : sep ≠ []) (skip : Bool) (t : Tab)
    (names : List (List Char)) (hc : t.colNames = some names) (hn : names ≠ []) (hw : ∀ n ∈ names, Spec.Word n)
    (hr : ∀ r ∈ t.rows, r.length = names.length)
    (hrn : ∀ ns, t.rowNames = some ns → ns.length = t.rows.length ∧ ∀ n ∈ ns, Spec.Word n)
    (hm : t.mask.length = t.rows.length) (hk : Spec.kept skip t.rows t.mask ≠ [])
    (hl : ∀ l ∈ headOf t names :: (keptIx skip t).map (cellsOf t), (join sep l).length < 65535) :
    ∃ s, readText rd t.rowNames.isSome true (writeTable sep skip t) = .ok s ∧ s.names = names.map String.ofList ∧
      s.rows = (Spec.kept skip t.rows t.mask).map fun r => r.map fun v => Libc.atof rd (fmt2 v) := by
  have hIx : ∀ r ∈ keptIx skip t, r < t.rows.length := by
    intro r h
    unfold keptIx at h
    exact List.mem_range.1 (List.mem_filter.1 h).1
  have words : ∀ l ∈ headOf t names :: (keptIx skip t).map (cellsOf t), ∀ c ∈ l, Spec.Word c := by
    intro l hl' c hcl
    rw [List.mem_cons] at hl'
    rcases hl' with rfl | hl'
    · unfold headOf at hcl
      rw [List.mem_append] at hcl
      rcases hcl with h | h
      · split at h
        · rw [List.mem_singleton] at h
          subst h
          exact ⟨by decide, by decide⟩
        · exact absurd h List.not_mem_nil
      · exact hw c h
    · rw [List.mem_map] at hl'
      obtain ⟨r, hr', rfl⟩ := hl'
      unfold cellsOf at hcl
      rw [List.mem_append] at hcl
      rcases hcl with h | h
      · split at h
        · exact absurd h List.not_mem_nil
        · rename_i ns e
          rw [List.mem_singleton] at h
          subst h
          have := hrn ns e
          rw [List.getD_eq_getElem _ _ (by rw [this.1]; exact hIx r hr')]
          exact this.2 _ (List.getElem_mem _)
      · rw [List.mem_map] at h
        obtain ⟨v, _, rfl⟩ := h
        exact fmt2_word v
  have hcut := cut_lines sep hs hne _ words hl
  rw [← write_eq sep skip t names hc hn hr] at hcut
  have hke := kept_eq skip t hm
  -- the cells behind the row name
  have cHead : Table.Spec.cells t.rowNames.isSome ((headOf t names).map String.ofList) = names.map String.ofList := by
    unfold Table.Spec.cells headOf
    cases t.rowNames <;> simp
  have cRow : ∀ r, Table.Spec.cells t.rowNames.isSome ((cellsOf t r).map String.ofList) =
      ((t.rows.getD r []).map fmt2).map String.ofList := by
    intro r
    unfold Table.Spec.cells cellsOf
    cases t.rowNames <;> simp
  have hpos : 0 < names.length := List.length_pos_iff.2 hn
  cases hI : keptIx skip t with
  | nil => rw [hI] at hke; exact absurd hke.symm hk
  | cons i is =>
    rw [hI] at hcut hke
    obtain ⟨s, h1, h2, _, _, h5⟩ := Table.c48_read_partial (fun s => Libc.atof rd s.toList) t.rowNames.isSome
      ((headOf t names).map String.ofList) ((cellsOf t i).map String.ofList)
      (is.map fun r => (cellsOf t r).map String.ofList) (by rw [cHead, List.length_map]; exact hpos) (by
        intro l hl'
        have : ∃ r ∈ keptIx skip t, l = (cellsOf t r).map String.ofList := by
          rw [List.mem_cons] at hl'
          rcases hl' with rfl | hl'
          · exact ⟨i, by rw [hI]; exact List.mem_cons_self, rfl⟩
          · rw [List.mem_map] at hl'
            obtain ⟨r, hr', rfl⟩ := hl'
            exact ⟨r, by rw [hI]; exact List.mem_cons_of_mem _ hr', rfl⟩
        obtain ⟨r, hr', rfl⟩ := this
        rw [cRow, cHead, List.length_map, List.length_map, List.length_map, List.getD_eq_getElem _ _ (hIx r hr')]
        exact hr _ (List.getElem_mem _))
    refine ⟨s, ?_, ?_, ?_⟩
    · unfold readText
      rw [hcut, List.map_cons, List.map_cons, List.map_cons, List.map_map]
      exact h1
    · rw [h2, cHead]
    · rw [h5, ← hke, List.map_map, List.map_cons, List.map_cons, List.map_map]
      simp only [Function.comp_def, cRow, List.map_map, String.toList_ofList]

/-! ## C280 -/

/-- C280: a table with column names is read back from the file it was written to: the names, and the rows that
were written, in their order. Each number is the closest one with two decimals (and `rd` is the rounding
of decimal numbers when reading). -/
theorem c280_roundtrip (rd : ℚ → ℚ) (sep : List Char) (hs : ∀ c ∈ sep, c = ' ' ∨ c = ',' ∨ c = '\t') (hne : sep ≠ [])
    (skip : Bool) (t : Tab) (names : List (List Char)) (hc : t.colNames = some names) (hn : names ≠ [])
    (hw : ∀ n ∈ names, Spec.Word n) (hr : ∀ r ∈ t.rows, r.length = names.length)
    (hrn : ∀ ns, t.rowNames = some ns → ns.length = t.rows.length ∧ ∀ n ∈ ns, Spec.Word n)
    (hm : t.mask.length = t.rows.length) (hk : Spec.kept skip t.rows t.mask ≠ [])
    (hl : ∀ l, l <:+: writeTable sep skip t → '\n' ∉ l → l.length < 65535) :
    ∃ s, readText rd t.rowNames.isSome true (writeTable sep skip t) = .ok s ∧ s.names = names.map String.ofList ∧
      List.Forall₂ (List.Forall₂ (Spec.Close rd)) (Spec.kept skip t.rows t.mask) s.rows := by
  have hs' : ∀ c ∈ sep, isSep c = true := by
    intro c h
    unfold isSep
    rcases hs c h with h | h | h <;> simp [h]
  have hwords : ∀ l ∈ headOf t names :: (keptIx skip t).map (cellsOf t), '\n' ∉ join sep l → (join sep l).length < 65535 := by
    intro l hl' hnl
    apply hl _ _ hnl
    rw [write_eq sep skip t names hc hn hr]
    obtain ⟨a, b, e⟩ := List.append_of_mem hl'
    rw [e, List.flatMap_append, List.flatMap_cons, items_eq]
    exact ⟨a.flatMap (items sep), ['\n'] ++ b.flatMap (items sep), by simp⟩
  have hIx : ∀ r ∈ keptIx skip t, r < t.rows.length := by
    intro r h
    unfold keptIx at h
    exact List.mem_range.1 (List.mem_filter.1 h).1
  have nonl : ∀ l ∈ headOf t names :: (keptIx skip t).map (cellsOf t), '\n' ∉ join sep l := by
    intro l hl' hmem
    refine (join_chars sep hs' l ?_ _ hmem).1 rfl
    intro c hcl
    rw [List.mem_cons] at hl'
    rcases hl' with rfl | hl'
    · unfold headOf at hcl
      rw [List.mem_append] at hcl
      rcases hcl with h | h
      · split at h
        · rw [List.mem_singleton] at h
          subst h
          exact ⟨by decide, by decide⟩
        · exact absurd h List.not_mem_nil
      · exact hw c h
    · rw [List.mem_map] at hl'
      obtain ⟨r, hr', rfl⟩ := hl'
      unfold cellsOf at hcl
      rw [List.mem_append] at hcl
      rcases hcl with h | h
      · split at h
        · exact absurd h List.not_mem_nil
        · rename_i ns e
          rw [List.mem_singleton] at h
          subst h
          have := hrn ns e
          rw [List.getD_eq_getElem _ _ (by rw [this.1]; exact hIx r hr')]
          exact this.2 _ (List.getElem_mem _)
      · rw [List.mem_map] at h
        obtain ⟨v, _, rfl⟩ := h
        exact fmt2_word v
  obtain ⟨s, h1, h2, h3⟩ := read_core rd sep hs' hne skip t names hc hn hw hr hrn hm hk
    (fun l hl' => hwords l hl' (nonl l hl'))
  refine ⟨s, h1, h2, ?_⟩
  rw [h3, List.forall₂_map_right_iff, List.forall₂_same]
  intro r _
  rw [List.forall₂_map_right_iff, List.forall₂_same]
  intro v _
  exact atof_close rd v

theorem close_int (rd : ℚ → ℚ) (n : Int) (x : ℚ) (hrd : rd n = n) (h : Spec.Close rd n x) : x = n := by
  obtain ⟨k, hk, hc⟩ := h
  rw [abs_le] at hc
  have h1 : (k : ℚ) ≤ 100 * n + 1 / 2 := by linarith [hc.2]
  have h2 : 100 * (n : ℚ) - 1 / 2 ≤ k := by linarith [hc.1]
  have h3 : k < 100 * n + 1 := by
    have : (k : ℚ) < ((100 * n + 1 : Int) : ℚ) := by push_cast; linarith
    exact_mod_cast this
  have h4 : 100 * n - 1 < k := by
    have : ((100 * n - 1 : Int) : ℚ) < k := by push_cast; linarith
    exact_mod_cast this
  have : k = 100 * n := by omega
  subst this
  rw [hk, show (((100 * n : Int) : ℚ)) / 100 = n by push_cast; ring, hrd]

theorem close_rows (rd : ℚ → ℚ) (hrd : ∀ n : Int, |n| ≤ 2 ^ 53 → rd n = n) (l : List (List ℚ))
    (hint : ∀ r ∈ l, ∀ v ∈ r, ∃ n : Int, v = n ∧ |n| ≤ 2 ^ 53) (r : List (List ℚ))
    (h : List.Forall₂ (List.Forall₂ (Spec.Close rd)) l r) : r = l := by
  have one : ∀ a b : List ℚ, List.Forall₂ (Spec.Close rd) a b → (∀ v ∈ a, ∃ n : Int, v = n ∧ |n| ≤ 2 ^ 53) → b = a := by
    intro a b hab
    induction hab with
    | nil => intro _; rfl
    | @cons x y _ _ hxy _ ih =>
      intro ha
      rw [ih fun v hv => ha v (List.mem_cons_of_mem _ hv)]
      obtain ⟨n, hx, hn⟩ := ha x List.mem_cons_self
      congr 1
      rw [hx] at hxy ⊢
      exact close_int rd n y (hrd n hn) hxy
  induction h with
  | nil => rfl
  | @cons a b l1 l2 hab _ ih =>
    rw [ih fun r hr => hint r (List.mem_cons_of_mem _ hr), one a b hab (hint a List.mem_cons_self)]

/-- C280: tables of whole numbers that doubles can hold are read back exactly. -/
theorem c280_integers (rd : ℚ → ℚ) (hrd : ∀ n : Int, |n| ≤ 2 ^ 53 → rd n = n) (sep : List Char)
    (hs : ∀ c ∈ sep, c = ' ' ∨ c = ',' ∨ c = '\t') (hne : sep ≠ [])
    (skip : Bool) (t : Tab) (names : List (List Char)) (hc : t.colNames = some names) (hn : names ≠ [])
    (hw : ∀ n ∈ names, Spec.Word n) (hr : ∀ r ∈ t.rows, r.length = names.length)
    (hrn : ∀ ns, t.rowNames = some ns → ns.length = t.rows.length ∧ ∀ n ∈ ns, Spec.Word n)
    (hm : t.mask.length = t.rows.length) (hk : Spec.kept skip t.rows t.mask ≠ [])
    (hl : ∀ l, l <:+: writeTable sep skip t → '\n' ∉ l → l.length < 65535)
    (hint : ∀ r ∈ t.rows, ∀ v ∈ r, ∃ n : Int, v = n ∧ |n| ≤ 2 ^ 53) :
    ∃ s, readText rd t.rowNames.isSome true (writeTable sep skip t) = .ok s ∧ s.names = names.map String.ofList ∧
      s.rows = Spec.kept skip t.rows t.mask := by
  obtain ⟨s, h1, h2, h3⟩ := c280_roundtrip rd sep hs hne skip t names hc hn hw hr hrn hm hk hl
  refine ⟨s, h1, h2, close_rows rd hrd _ ?_ _ h3⟩
  intro r hr'
  apply hint
  unfold Spec.kept at hr'
  split at hr'
  · rw [List.mem_map] at hr'
    obtain ⟨p, hp, rfl⟩ := hr'
    exact (List.of_mem_zip (List.mem_filter.1 hp).1).1
  · exact hr'

/-! ## C280: histograms -/

theorem fmt2_length (n : Int) (h : |n| ≤ 2 ^ 53) : (fmt2 n).length ≤ 20 := by
  have e : Libc.roundEven (|(n : ℚ)| * 100) = |n| * 100 := by
    apply Libc.roundEven_of_close
    push_cast
    simp
  unfold fmt2
  rw [e]
  dsimp only
  have h1 : (Libc.decDigits ((|n| * 100).toNat / 100)).length ≤ 15 + 1 := by
    apply Libc.decDigits_length
    have : (|n| * 100).toNat / 100 ≤ 2 ^ 53 := by omega
    calc _ ≤ 2 ^ 53 := this
      _ < 10 ^ (15 + 1) := by norm_num
  rw [List.length_append, List.length_append, List.length_cons, Libc.padDigits_length]
  split <;> simp only [List.length_cons, List.length_nil] <;> omega

theorem hist_kept (c : Nat → Nat) : Spec.kept true (histTab c).rows (histTab c).mask =
    (((List.range Tools.length).filter fun k : Nat => decide (c k ≠ 0)).map fun k : Nat => ((k : Int) - Tools.offset, c k)).map
      (fun r : Int × Nat => [(r.1 : ℚ), (r.2 : ℚ)]) := by
  unfold Spec.kept histTab
  rw [if_pos rfl]
  dsimp only
  generalize List.range Tools.length = l
  induction l with
  | nil => rfl
  | cons k l ih =>
    rw [List.map_cons, List.map_cons, List.zip_cons_cons]
    by_cases h : c k = 0
    · simp only [List.filter_cons, h, decide_true, Bool.not_true, Bool.false_eq_true, if_false, ne_eq, not_true_eq_false,
        decide_false]
      exact ih
    · simp only [List.filter_cons, h, decide_false, Bool.not_false, if_true, ne_eq, not_false_eq_true, decide_true,
        List.map_cons]
      rw [ih]

theorem hist_lines (c : Nat → Nat) (hb : ∀ k, c k ≤ 2 ^ 53) :
    ∀ l ∈ headOf (histTab c) ["class".toList, "count".toList] :: (keptIx true (histTab c)).map (cellsOf (histTab c)),
      (join [','] l).length < 65535 := by
  intro l hl
  rw [List.mem_cons] at hl
  rcases hl with rfl | hl
  · show (join [','] ["class".toList, "count".toList]).length < 65535
    decide
  · rw [List.mem_map] at hl
    obtain ⟨r, hr, rfl⟩ := hl
    have hr' : r < Tools.length := by
      unfold keptIx at hr
      have := List.mem_range.1 (List.mem_filter.1 hr).1
      simpa [histTab] using this
    have e : cellsOf (histTab c) r = [fmt2 (((r : Int) - Tools.offset : Int) : ℚ), fmt2 ((c r : Int) : ℚ)] := by
      unfold cellsOf histTab
      dsimp only
      rw [List.getD_eq_getElem _ _ (by simpa using hr')]
      simp
    rw [e]
    have h1 := fmt2_length ((r : Int) - Tools.offset) (by
      unfold Tools.length at hr'
      unfold Tools.offset
      rw [abs_le]
      constructor <;> omega)
    have h2 := fmt2_length (c r : Int) (by
      have := hb r
      rw [abs_of_nonneg (by omega)]
      exact_mod_cast this)
    show (fmt2 _ ++ [','] ++ fmt2 _).length < 65535
    rw [List.length_append, List.length_append]
    simp only [List.length_cons, List.length_nil]
    omega

theorem count_le (nd : Int) (l : List Int) (c c' : Nat → Nat) (h : Tools.count nd l c = .ok c') :
    ∀ k, c' k ≤ c k + l.length := by
  induction l generalizing c with
  | nil =>
    rw [Tools.count] at h
    injection h with h
    intro k
    rw [h]; simp
  | cons v l ih =>
    rw [Tools.count] at h
    intro k
    rw [List.length_cons]
    split at h
    · have := ih _ h k; omega
    · split at h
      · have := ih _ h k
        split at this <;> omega
      · cases h

/-- C280: the histogram of an image is read back from its file: one row for each value that occurs, in increasing
order, with the exact number of its pixels. -/
theorem c280_histogram (rd : ℚ → ℚ) (hrd : ∀ n : Int, |n| ≤ 2 ^ 53 → rd n = n) (nodata : Int)
    (hn : -32768 ≤ nodata ∧ nodata ≤ 32767) (pixels : List Int) (hp : ∀ v ∈ pixels, -32768 ≤ v ∧ v ≤ 32767)
    (hlen : pixels.length ≤ 2 ^ 53) (hne : ∃ v ∈ pixels, v ≠ nodata) :
    ∃ text s, histFile (some (nodata : ℚ)) pixels = .ok text ∧ readText rd false true text = .ok s ∧
      s.names = ["class", "count"] ∧ (∀ row ∈ s.rows, row.length = 2) ∧
      (s.rows.map fun row => row.headD 0).Pairwise (· < ·) ∧
      ∀ v n : ℚ, [v, n] ∈ s.rows ↔ ∃ p ∈ pixels, v = p ∧ p ≠ nodata ∧ n = pixels.count p := by
  obtain ⟨_, rows, h1, h2, h3, _⟩ := Tools.c120_histogram_partial nodata hn pixels hp
  unfold Tools.histogram at h1
  dsimp only at h1
  unfold histFile
  dsimp only
  cases hs : Index.short (nodata : ℚ) with
  | exit => rw [hs] at h1; cases h1
  | ub => rw [hs] at h1; cases h1
  | ok nd =>
    rw [hs] at h1
    dsimp only [Out.bind] at h1 ⊢
    cases hc : Tools.count nd pixels fun _ => 0 with
    | exit => rw [hc] at h1; cases h1
    | ub => rw [hc] at h1; cases h1
    | ok c =>
      rw [hc] at h1
      dsimp only at h1 ⊢
      injection h1 with h1
      have hk := hist_kept c
      rw [h1] at hk
      have hb : ∀ k, c k ≤ 2 ^ 53 := by
        intro k
        have := count_le nd pixels _ c hc k
        omega
      obtain ⟨v, hv, hvn⟩ := hne
      have hrow : rows ≠ [] := by
        intro h
        have := (h3 v (pixels.count v)).2 ⟨hv, hvn, rfl⟩
        rw [h] at this
        exact absurd this List.not_mem_nil
      have hw : ∀ n ∈ ["class".toList, "count".toList], Spec.Word n := by
        intro n hn
        simp only [List.mem_cons, List.not_mem_nil, or_false] at hn
        rcases hn with rfl | rfl
        · exact ⟨by decide, by decide⟩
        · exact ⟨by decide, by decide⟩
      obtain ⟨s, e1, e2, e3⟩ := read_core rd [','] (by decide) (by decide) true (histTab c)
        ["class".toList, "count".toList] rfl (by decide) hw
        (by
          intro r hr
          unfold histTab at hr
          dsimp only at hr
          rw [List.mem_map] at hr
          obtain ⟨k, _, rfl⟩ := hr
          rfl)
        (by intro ns h; cases h) (by simp [histTab])
        (by
          rw [hk]
          intro h
          exact hrow (List.map_eq_nil_iff.1 h))
        (hist_lines c hb)
      have e4 : s.rows = rows.map (fun r : Int × Nat => [(r.1 : ℚ), (r.2 : ℚ)]) := by
        rw [← hk]
        apply close_rows rd hrd
        · rw [hk]
          intro r hr x hx
          rw [List.mem_map] at hr
          obtain ⟨p, hp', rfl⟩ := hr
          have hq := (h3 p.1 p.2).1 hp'
          simp only [List.mem_cons, List.not_mem_nil, or_false] at hx
          rcases hx with rfl | rfl
          · refine ⟨p.1, rfl, ?_⟩
            have := hp p.1 hq.1
            rw [abs_le]
            constructor <;> omega
          · refine ⟨p.2, by simp, ?_⟩
            have := List.count_le_length (l := pixels) (a := p.1)
            rw [abs_of_nonneg (by omega)]
            omega
        · rw [e3, List.forall₂_map_right_iff, List.forall₂_same]
          intro r _
          rw [List.forall₂_map_right_iff, List.forall₂_same]
          intro v _
          exact atof_close rd v
      refine ⟨_, s, rfl, e1, e2, ?_, ?_, ?_⟩
      · rw [e4]
        intro row hr
        rw [List.mem_map] at hr
        obtain ⟨p, _, rfl⟩ := hr
        rfl
      · rw [e4, List.map_map]
        rw [List.pairwise_map] at h2 ⊢
        refine h2.imp ?_
        intro a b hab
        show (a.1 : ℚ) < (b.1 : ℚ)
        exact_mod_cast hab
      · intro x n
        rw [e4, List.mem_map]
        constructor
        · rintro ⟨p, hp', e⟩
          have hq := (h3 p.1 p.2).1 hp'
          injection e with ea eb
          injection eb with eb _
          exact ⟨p.1, hq.1, ea.symm, hq.2.1, by rw [← eb, hq.2.2]⟩
        · rintro ⟨p, hp', rfl, hne, rfl⟩
          exact ⟨(p, pixels.count p), (h3 p _).2 ⟨hp', hne, rfl⟩, rfl⟩

/-- C280: the file of an image without any valid pixel cannot be read as a table: reading ends with an error. -/
theorem c280_empty (rd : ℚ → ℚ) (nodata : Int) (hn : -32768 ≤ nodata ∧ nodata ≤ 32767) (n : Nat) :
    ∃ text, histFile (some (nodata : ℚ)) (List.replicate n nodata) = .ok text ∧ text = "class,count\n".toList ∧
      readText rd false true text = .exit := by
  have hcount : ∀ c, Tools.count nodata (List.replicate n nodata) c = .ok c := by
    intro c
    induction n with
    | zero => rfl
    | succ n ih => rw [List.replicate_succ, Tools.count, if_pos rfl]; exact ih
  have hs : Index.short (nodata : ℚ) = .ok nodata := by
    have a : ((-32768 : ℤ) : ℚ) ≤ nodata := by exact_mod_cast hn.1
    have b : (nodata : ℚ) ≤ ((32767 : ℤ) : ℚ) := by exact_mod_cast hn.2
    push_cast at a b
    rw [Index.short_ok (by linarith) (by linarith), Index.truncQ_eq]
    simp
  have hw : writeTable [','] true (histTab fun _ => 0) = "class,count\n".toList := by
    have hk : keptIx true (histTab fun _ => 0) = [] := by
      unfold keptIx
      rw [List.filter_eq_nil_iff]
      intro r hr
      rw [List.mem_range] at hr
      have hr' : r < Tools.length := by simpa [histTab] using hr
      simp only [histTab]
      rw [List.getD_eq_getElem _ _ (by simpa using hr')]
      simp
    rw [write_eq [','] true (histTab fun _ => 0) _ rfl (by decide) (by
      intro r hr
      unfold histTab at hr
      dsimp only at hr
      rw [List.mem_map] at hr
      obtain ⟨k, _, rfl⟩ := hr
      rfl), hk]
    rfl
  refine ⟨"class,count\n".toList, ?_, rfl, ?_⟩
  · unfold histFile
    dsimp only
    rw [hs]
    dsimp only [Out.bind]
    rw [hcount]
    dsimp only
    rw [hw]
  · have : cut "class,count\n".toList = [["class", "count"]] := by
      have := cut_lines [','] (by decide) (by decide) [["class".toList, "count".toList]] (by
        intro l hl c hc
        rw [List.mem_singleton] at hl
        subst hl
        simp only [List.mem_cons, List.not_mem_nil, or_false] at hc
        rcases hc with rfl | rfl
        · exact ⟨by decide, by decide⟩
        · exact ⟨by decide, by decide⟩) (by
        intro l hl
        rw [List.mem_singleton] at hl
        subst hl
        decide)
      exact this
    unfold readText
    rw [this]
    rfl

/-- A table with row names, and a masked row. -/
def demo : Tab where
  colNames := some ["a".toList, "b".toList]
  rowNames := some ["x".toList, "y".toList, "z".toList]
  rows := [[1, -5 / 2], [7, 8], [1 / 3, 12345]]
  mask := [true, false, true]

example : writeTable [','] true demo = "rowname,a,b\nx,1.00,-2.50\nz,0.33,12345.00\n".toList := by decide +kernel

/-- The hypotheses of `c280_roundtrip` are met. -/
example : ∃ s, readText id true true (writeTable [','] true demo) = .ok s ∧ s.names = ["a", "b"] ∧ s.rows.length = 2 := by
  have hw : ∀ n ∈ ["a".toList, "b".toList], Spec.Word n := by
    intro n hn
    simp only [List.mem_cons, List.not_mem_nil, or_false] at hn
    rcases hn with rfl | rfl
    · exact ⟨by decide, by decide⟩
    · exact ⟨by decide, by decide⟩
  obtain ⟨s, h1, h2, h3⟩ := c280_roundtrip id [','] (by decide) (by decide) true demo _ rfl (by decide) hw (by decide)
    (by
      intro ns h
      have h : some ["x".toList, "y".toList, "z".toList] = some ns := h
      injection h with h
      subst h
      refine ⟨rfl, ?_⟩
      intro n hn
      simp only [List.mem_cons, List.not_mem_nil, or_false] at hn
      rcases hn with rfl | rfl | rfl
      · exact ⟨by decide, by decide⟩
      · exact ⟨by decide, by decide⟩
      · exact ⟨by decide, by decide⟩) rfl (by decide)
    (by
      intro l hl _
      have h1 := hl.length_le
      have h2 : (writeTable [','] true demo).length = 41 := by decide +kernel
      omega)
  exact ⟨s, h1, h2, by rw [← h3.length_eq]; rfl⟩

end Verif.Csv
