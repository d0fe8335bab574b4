import Verif.Gdalopt.Model
import Verif.Cube.Props
import Verif.Str.Props2

/-!
# Theorems about the output options
-/

namespace Verif.Gdalopt

open Verif.Str (Out StrVec allocVec fillVec fillString cstr nul Inv fillVec_ok c29_fill_string cstr_append_nul)
open Verif.Cube (tagLine)

/-! ## Specification -/

/-- A word of the file: not empty, no separators, no line ends, less than 1024 characters. -/
def Word (s : List Char) : Prop := s ≠ [] ∧ (∀ c ∈ s, c ≠ ' ' ∧ c ≠ '=' ∧ c ≠ '\r' ∧ c ≠ '\n' ∧ c ≠ nul) ∧ s.length < 1024

/-- The text of a file with one pair of tag and value per line. -/
def fileText (ls : List (List Char × List Char)) : List Char := ls.flatMap fun p => p.1 ++ " = ".toList ++ p.2 ++ ['\n']

/-- The values given for a tag, in the order of the file. -/
def valuesOf (tag : String) (ls : List (List Char × List Char)) : List (List Char) := (ls.filter fun p => p.1 == tag.toList).map (·.2)

/-- The lines that are neither driver nor extension. -/
def others (ls : List (List Char × List Char)) : List (List Char × List Char) :=
  ls.filter fun p => p.1 != "DRIVER".toList && p.1 != "EXTENSION".toList

/-! ## Reading -/

theorem read_fileText (ls : List (List Char × List Char)) (h0 : ls ≠ []) (h : ∀ p ∈ ls, Word p.1 ∧ Word p.2) :
    Cube.readTagvalue (some (fileText ls)) = .ok ls := by
  have e : fileText ls = (ls.map fun p => p.1 ++ ' ' :: '=' :: ' ' :: p.2).flatMap fun l => l ++ ['\n'] := by
    rw [fileText, List.flatMap_map]
    congr 1
    funext p
    simp
  have hl := Libc.fgetsAll_lines 65536 (ls.map fun p => p.1 ++ ' ' :: '=' :: ' ' :: p.2) (by
    intro l hl
    obtain ⟨p, hp, rfl⟩ := List.mem_map.1 hl
    obtain ⟨h1, h2⟩ := h p hp
    constructor
    · simp only [List.mem_append, List.mem_cons, not_or]
      exact ⟨fun hc => (h1.2.1 _ hc).2.2.2.1 rfl, by decide, by decide, by decide, fun hc => (h2.2.1 _ hc).2.2.2.1 rfl⟩
    · have := h1.2.2; have := h2.2.2
      simp only [List.length_append, List.length_cons]; omega)
  have hr : ∀ ls : List (List Char × List Char), (∀ p ∈ ls, Word p.1 ∧ Word p.2) →
      Cube.tagValueLines ((ls.map fun p => p.1 ++ ' ' :: '=' :: ' ' :: p.2).map fun l => l ++ ['\n']) = .ok ls := by
    intro ls
    induction ls with
    | nil => intro _; rfl
    | cons p ls ih =>
      intro h
      obtain ⟨h1, h2⟩ := h p (by simp)
      have hp := Cube.tagValueLine_tagLine p.1 p.2 h1.1 (fun c hc => ⟨(h1.2.1 c hc).1, (h1.2.1 c hc).2.1, (h1.2.1 c hc).2.2.1, (h1.2.1 c hc).2.2.2.1⟩) h1.2.2
        h2.1 (fun c hc => ⟨(h2.2.1 c hc).1, (h2.2.1 c hc).2.1, (h2.2.1 c hc).2.2.1, (h2.2.1 c hc).2.2.2.1⟩) h2.2.2
      rw [Cube.tagLine_eq] at hp
      simp only [List.map_cons, Cube.tagValueLines, hp, ih fun q hq => h q (by simp [hq])]
  unfold Cube.readTagvalue
  rw [e]
  simp only [hl, hr ls h]
  cases ls with
  | nil => exact absurd rfl h0
  | cons a l => rfl

/-! ## Vectors as lists of texts -/

/-- The texts of a vector. -/
def texts (v : StrVec) : List (List Char) := v.rows.map cstr

theorem fill_at (v : StrVec) (hv : Inv v) (hl : 0 < v.length) (done : List (List Char)) (k : Nat) (ht : texts v = done ++ List.replicate k []) (s : List Char) (hs : nul ∉ s) :
    ∃ v', fillVec v done.length s = .ok v' ∧ Inv v' ∧ 0 < v'.length ∧ v'.number = max v.number (done.length + 1) ∧
      texts v' = (done ++ [s]) ++ List.replicate (k - 1) [] := by
  obtain ⟨v', e, h1, h2, h3, h4, h5⟩ := fillVec_ok v hv done.length s hs (Or.inr hl)
  refine ⟨v', e, h1, h2, h3, ?_⟩
  have hn : v.number = done.length + k := by
    have := congrArg List.length ht
    simp only [texts, List.length_map, List.length_append, List.length_replicate] at this
    rw [← hv.1]; exact this
  apply List.ext_getElem?
  intro i
  have hti : (texts v')[i]? = v'.text i := by simp [texts, StrVec.text]
  have htv : v.text i = (texts v)[i]? := by simp [texts, StrVec.text]
  rw [hti]
  by_cases hi : i < v'.number
  · by_cases hd : i = done.length
    · subst hd
      rw [h4, List.getElem?_append_left (by simp), List.getElem?_append_right (le_refl _)]
      simp
    · rw [h5 i hi hd, htv, ht]
      rcases Nat.lt_or_gt_of_ne hd with hlt | hgt
      · rw [List.getElem?_append_left hlt, List.append_assoc, List.getElem?_append_left hlt, List.getElem?_eq_getElem hlt]
        rfl
      · have hik : i < done.length + k := by omega
        rw [List.getElem?_append_right (by omega), List.getElem?_append_right (by simp; omega), List.getElem?_replicate, List.getElem?_replicate,
          if_pos (by omega), if_pos (by simp; omega)]
        rfl
  · have e1 : v'.text i = none := by
      unfold StrVec.text
      rw [List.getElem?_eq_none (by rw [h1.1]; omega)]
      rfl
    rw [e1, List.getElem?_eq_none]
    simp only [List.length_append, List.length_replicate, List.length_cons, List.length_nil]
    omega

theorem alloc_texts (n l : Nat) (hn : n ≠ 0) (hl : l ≠ 0) :
    ∃ v, allocVec n l = .ok v ∧ Inv v ∧ 0 < v.length ∧ v.number = n ∧ v.length = l + 1 ∧ texts v = List.replicate n [] := by
  unfold allocVec
  rw [if_neg hn, if_neg hl]
  refine ⟨_, rfl, ⟨by simp, ?_⟩, by simp, rfl, rfl, ?_⟩
  · intro r hr
    rw [List.mem_replicate] at hr
    rw [hr.2]
    exact ⟨by simp, List.mem_replicate.2 ⟨by omega, rfl⟩⟩
  · simp [texts, Str.cstr_replicate]

theorem fillString_word {s : List Char} (h : s ≠ []) (hn : nul ∉ s) : ∃ b, fillString s = .ok b ∧ cstr b = s :=
  ⟨_, (c29_fill_string s hn).1 h, cstr_append_nul hn⟩

theorem Word.nul {s : List Char} (h : Word s) : nul ∉ s := fun hc => (h.2.1 _ hc).2.2.2.2 rfl

/-- The state after the lines `ls`. -/
theorem setRows_spec (ls : List (List Char × List Char)) (h : ∀ p ∈ ls, Word p.1 ∧ Word p.2) (o : Opt) (done : List (List Char × List Char)) (k : Nat)
    (it : Inv o.tags) (iv : Inv o.vals) (lt : 0 < o.tags.length) (lv : 0 < o.vals.length)
    (ht : texts o.tags = done.map (·.1) ++ List.replicate k []) (hv : texts o.vals = done.map (·.2) ++ List.replicate k []) :
    ∃ o', setRows (o, done.length) ls = .ok (o', (done ++ others ls).length) ∧ Inv o'.tags ∧ Inv o'.vals ∧
      o'.driver = ((valuesOf "DRIVER" ls).getLast?).or o.driver ∧ o'.extension = ((valuesOf "EXTENSION" ls).getLast?).or o.extension ∧
      texts o'.tags = (done ++ others ls).map (·.1) ++ List.replicate (k - (others ls).length) [] ∧
      texts o'.vals = (done ++ others ls).map (·.2) ++ List.replicate (k - (others ls).length) [] := by
  induction ls generalizing o done k with
  | nil => exact ⟨o, by simp [setRows, others], it, iv, by simp [valuesOf], by simp [valuesOf], by simpa [others] using ht, by simpa [others] using hv⟩
  | cons p ls ih =>
    obtain ⟨w1, w2⟩ := h p (by simp)
    have h' : ∀ p ∈ ls, Word p.1 ∧ Word p.2 := fun q hq => h q (by simp [hq])
    have lastcons : ∀ (a : List Char) (l : List (List Char)) (d : Option (List Char)), (a :: l).getLast?.or d = l.getLast?.or (some a) := by
      intro a l d
      cases l with
      | nil => simp
      | cons b l => simp [List.getLast?_cons]
    by_cases hd : p.1 = "DRIVER".toList
    · obtain ⟨b, e, eb⟩ := fillString_word w2.1 w2.nul
      obtain ⟨o', e', i1, i2, d1, d2, t1, t2⟩ := ih h' { o with driver := some (cstr b) } done k it iv lt lv ht hv
      have hne : ¬ p.1 = "EXTENSION".toList := by rw [hd]; decide
      have ho : others (p :: ls) = others ls := by simp [others, hd]
      refine ⟨o', ?_, i1, i2, ?_, ?_, by rw [ho]; exact t1, by rw [ho]; exact t2⟩
      · rw [setRows, setRow, if_pos hd, e, ho]
        exact e'
      · rw [d1, eb]
        have : valuesOf "DRIVER" (p :: ls) = p.2 :: valuesOf "DRIVER" ls := by simp [valuesOf, hd]
        rw [this, lastcons]
      · rw [d2]
        have : valuesOf "EXTENSION" (p :: ls) = valuesOf "EXTENSION" ls := by simp [valuesOf, hd]
        rw [this]
    · by_cases hx : p.1 = "EXTENSION".toList
      · obtain ⟨b, e, eb⟩ := fillString_word w2.1 w2.nul
        obtain ⟨o', e', i1, i2, d1, d2, t1, t2⟩ := ih h' { o with extension := some (cstr b) } done k it iv lt lv ht hv
        have ho : others (p :: ls) = others ls := by simp [others, hx]
        refine ⟨o', ?_, i1, i2, ?_, ?_, by rw [ho]; exact t1, by rw [ho]; exact t2⟩
        · rw [setRows, setRow, if_neg hd, if_pos hx, e, ho]
          exact e'
        · rw [d1]
          have : valuesOf "DRIVER" (p :: ls) = valuesOf "DRIVER" ls := by simp [valuesOf, hx]
          rw [this]
        · rw [d2, eb]
          have : valuesOf "EXTENSION" (p :: ls) = p.2 :: valuesOf "EXTENSION" ls := by simp [valuesOf, hx]
          rw [this, lastcons]
      · have ho : others (p :: ls) = p :: others ls := by
          rw [others, List.filter_cons, if_pos (by simpa using ⟨hd, hx⟩)]
          rfl
        obtain ⟨t, et, jt, jl, jn, jt'⟩ := fill_at o.tags it lt (done.map (·.1)) k ht p.1 w1.nul
        obtain ⟨v, ev, kt, kl, kn, kt'⟩ := fill_at o.vals iv lv (done.map (·.2)) k hv p.2 w2.nul
        rw [List.length_map] at et ev
        obtain ⟨o', e', i1, i2, d1, d2, t1, t2⟩ := ih h' { o with tags := t, vals := v } (done ++ [p]) (k - 1) jt kt jl kl (by simpa using jt') (by simpa using kt')
        have hk : k - 1 - (others ls).length = k - (others (p :: ls)).length := by rw [ho, List.length_cons]; omega
        have hap : done ++ [p] ++ others ls = done ++ others (p :: ls) := by rw [ho]; simp
        refine ⟨o', ?_, i1, i2, ?_, ?_, ?_, ?_⟩
        · rw [setRows, setRow, if_neg hd, if_neg hx, et]
          simp only [Out.bind]
          rw [ev]
          simp only [Out.bind]
          rw [← hap, ← e']
          simp
        · rw [d1]
          have : valuesOf "DRIVER" (p :: ls) = valuesOf "DRIVER" ls := by
            rw [valuesOf, List.filter_cons, if_neg (by simpa using hd)]
            rfl
          rw [this]
        · rw [d2]
          have : valuesOf "EXTENSION" (p :: ls) = valuesOf "EXTENSION" ls := by
            rw [valuesOf, List.filter_cons, if_neg (by simpa using hx)]
            rfl
          rw [this]
        · rw [t1, hap, hk]
        · rw [t2, hap, hk]

theorem maxLen_ge (l : List (List Char)) (m : Nat) : m ≤ l.foldl (fun n s => if s.length > n then s.length else n) m ∧
    ∀ s ∈ l, s.length ≤ l.foldl (fun n s => if s.length > n then s.length else n) m := by
  induction l generalizing m with
  | nil => simp
  | cons a l ih =>
    obtain ⟨h1, h2⟩ := ih (if a.length > m then a.length else m)
    simp only [List.foldl_cons, List.mem_cons, forall_eq_or_imp]
    refine ⟨le_trans ?_ h1, le_trans ?_ h1, h2⟩ <;> split <;> omega

theorem maxLen_pos (l : List (List Char)) (h : l ≠ []) (hw : ∀ s ∈ l, s ≠ []) : maxLen l ≠ 0 := by
  obtain ⟨a, r, rfl⟩ := List.exists_cons_of_ne_nil h
  have := (maxLen_ge (a :: r) 0).2 a (by simp)
  have := List.length_pos_iff.2 (hw a (by simp))
  unfold maxLen
  omega

/-- The result of the whole function. -/
theorem parse_spec (ls : List (List Char × List Char)) (h2 : 2 < ls.length) (h : ∀ p ∈ ls, Word p.1 ∧ Word p.2) :
    (valuesOf "DRIVER" ls = [] ∨ valuesOf "EXTENSION" ls = [] → parse (some (fileText ls)) = .exit) ∧
    (∀ d e, (valuesOf "DRIVER" ls).getLast? = some d → (valuesOf "EXTENSION" ls).getLast? = some e →
      ∃ o, parse (some (fileText ls)) = .ok o ∧ o.driver = some d ∧ o.extension = some e ∧ Inv o.tags ∧ Inv o.vals ∧
        passed o = some (others ls ++ List.replicate (ls.length - 2 - (others ls).length) ([], []))) := by
  have hne : ls ≠ [] := by rintro rfl; simp at h2
  obtain ⟨t, et, it, lt, nt, -, tt⟩ := alloc_texts (ls.length - 2) (maxLen (ls.map (·.1))) (by omega)
    (maxLen_pos _ (by simpa using hne) (by intro s hs; obtain ⟨p, hp, rfl⟩ := List.mem_map.1 hs; exact (h p hp).1.1))
  obtain ⟨v, ev, iv, lv, nv, -, tv⟩ := alloc_texts (ls.length - 2) (maxLen (ls.map (·.2))) (by omega)
    (maxLen_pos _ (by simpa using hne) (by intro s hs; obtain ⟨p, hp, rfl⟩ := List.mem_map.1 hs; exact (h p hp).2.1))
  obtain ⟨o, eo, i1, i2, d1, d2, t1, t2⟩ := setRows_spec ls h ⟨none, none, t, v⟩ [] (ls.length - 2) it iv lt lv (by simpa using tt) (by simpa using tv)
  simp only [List.nil_append, List.length_nil, Option.or_none] at eo d1 d2 t1 t2
  have e : parse (some (fileText ls)) = if o.driver = none then .exit else if o.extension = none then .exit else .ok o := by
    unfold parse
    rw [read_fileText ls hne h]
    simp only
    rw [if_neg (by omega), et]
    simp only [Out.bind]
    rw [ev]
    simp only [Out.bind]
    rw [eo]
  constructor
  · rintro (hd | hx)
    · rw [e, d1, hd]; rfl
    · rw [e, d2, hx]
      simp
  · intro d x hd hx
    rw [hd] at d1
    rw [hx] at d2
    refine ⟨o, by rw [e, d1, d2]; simp, d1, d2, i1, i2, ?_⟩
    have hn : o.tags.number = o.vals.number := by
      rw [← i1.1, ← i2.1]
      have a1 := congrArg List.length t1
      have a2 := congrArg List.length t2
      simp only [texts, List.length_map, List.length_append] at a1 a2
      omega
    unfold passed
    rw [if_neg (by simpa using hn)]
    have t1' : o.tags.rows.map cstr = _ := t1
    have t2' : o.vals.rows.map cstr = _ := t2
    rw [t1', t2', List.zip_append (by simp)]
    congr 2
    · rw [List.zip_map']
      simp
    · simp [List.zip_replicate]

theorem length_two {A : Type} [BEq A] [LawfulBEq A] {B : Type} (d e : A) (hn : d ≠ e) (l : List (A × B)) :
    l.length = (l.filter fun p => p.1 == d).length + (l.filter fun p => p.1 == e).length + (l.filter fun p => p.1 != d && p.1 != e).length := by
  induction l with
  | nil => rfl
  | cons p l ih =>
    simp only [List.filter_cons, List.length_cons]
    by_cases h1 : p.1 = d
    · simp [h1, hn]; omega
    · by_cases h2 : p.1 = e
      · simp [h2, Ne.symm hn]; omega
      · simp [h1, h2]; omega

theorem length_parts (ls : List (List Char × List Char)) :
    ls.length = (valuesOf "DRIVER" ls).length + (valuesOf "EXTENSION" ls).length + (others ls).length := by
  rw [valuesOf, valuesOf, List.length_map, List.length_map]
  exact length_two "DRIVER".toList "EXTENSION".toList (by decide) ls

/-- **C137** A file with one driver, one extension and at least one further option, in any order: driver, extension and the options, in the order of the file, are what GDAL is given. -/
theorem c137_options_partial (ls : List (List Char × List Char)) (h : ∀ p ∈ ls, Word p.1 ∧ Word p.2) (d e : List Char)
    (hd : valuesOf "DRIVER" ls = [d]) (he : valuesOf "EXTENSION" ls = [e]) (h1 : others ls ≠ []) :
    ∃ o, parse (some (fileText ls)) = .ok o ∧ o.driver = some d ∧ o.extension = some e ∧ passed o = some (others ls) := by
  have hl := length_parts ls
  rw [hd, he] at hl
  have hpos := List.length_pos_iff.2 h1
  simp only [List.length_cons, List.length_nil] at hl
  obtain ⟨o, e1, e2, e3, -, -, e4⟩ := (parse_spec ls (by omega) h).2 d e (by rw [hd]; rfl) (by rw [he]; rfl)
  refine ⟨o, e1, e2, e3, ?_⟩
  rw [e4]
  have : ls.length - 2 - (others ls).length = 0 := by omega
  rw [this]
  simp

/-- **C137** A file without driver or without extension is rejected. -/
theorem c137_missing (ls : List (List Char × List Char)) (h : ∀ p ∈ ls, Word p.1 ∧ Word p.2) (hm : valuesOf "DRIVER" ls = [] ∨ valuesOf "EXTENSION" ls = []) :
    parse (some (fileText ls)) = .exit := by
  by_cases h2 : 2 < ls.length
  · exact (parse_spec ls h2 h).1 hm
  · by_cases hne : ls = []
    · subst hne; rfl
    · unfold parse
      rw [read_fileText ls hne h]
      simp only
      rw [if_pos (by omega)]

theorem word_driver : Word "DRIVER".toList := ⟨by decide, by decide, by decide⟩
theorem word_extension : Word "EXTENSION".toList := ⟨by decide, by decide, by decide⟩

/-- C137, violated: a file with the two mandatory lines only (driver and extension) ends the program. -/
theorem c137_mandatory_violated (d e : List Char) (hd : Word d) (he : Word e) :
    parse (some (fileText [("DRIVER".toList, d), ("EXTENSION".toList, e)])) = .exit := by
  unfold parse
  rw [read_fileText _ (by simp) (by
    intro p hp
    simp only [List.mem_cons, List.not_mem_nil, or_false] at hp
    rcases hp with rfl | rfl
    · exact ⟨word_driver, hd⟩
    · exact ⟨word_extension, he⟩)]
  rfl

/-- C137, violated: if driver or extension is given more than once, GDAL is given, in addition to the options of the file, options with empty name and value. -/
theorem c137_repeated_violated (ls : List (List Char × List Char)) (h : ∀ p ∈ ls, Word p.1 ∧ Word p.2)
    (hd : valuesOf "DRIVER" ls ≠ []) (he : valuesOf "EXTENSION" ls ≠ []) (h2 : (others ls).length + 2 < ls.length) :
    ∃ o k, parse (some (fileText ls)) = .ok o ∧ passed o = some (others ls ++ List.replicate (k + 1) ([], [])) := by
  obtain ⟨o, e1, -, -, -, -, e4⟩ := (parse_spec ls (by omega) h).2 ((valuesOf "DRIVER" ls).getLast hd) ((valuesOf "EXTENSION" ls).getLast he)
    (List.getLast?_eq_some_getLast hd) (List.getLast?_eq_some_getLast he)
  refine ⟨o, ls.length - 2 - (others ls).length - 1, e1, ?_⟩
  rw [e4]
  congr 3
  omega

/-! ## Copies -/

theorem fillFrom_spec (l : List (List Char)) (hn : ∀ s ∈ l, nul ∉ s) (v : StrVec) (hv : Inv v) (hl : 0 < v.length) (done : List (List Char)) (k : Nat)
    (ht : texts v = done ++ List.replicate k []) :
    ∃ v', fillFrom v done.length l = .ok v' ∧ Inv v' ∧ 0 < v'.length ∧ texts v' = done ++ l ++ List.replicate (k - l.length) [] := by
  induction l generalizing v done k with
  | nil => exact ⟨v, rfl, hv, hl, by simpa using ht⟩
  | cons s l ih =>
    obtain ⟨w, e, i, li, -, ti⟩ := fill_at v hv hl done k ht s (hn s (by simp))
    obtain ⟨v', e', i', l', t'⟩ := ih (fun q hq => hn q (by simp [hq])) w i li (done ++ [s]) (k - 1) ti
    refine ⟨v', ?_, i', l', ?_⟩
    · rw [fillFrom, e]
      rw [List.length_append] at e'
      exact e'
    · rw [t']
      have : k - 1 - l.length = k - (s :: l).length := by rw [List.length_cons]; omega
      rw [this]
      simp

theorem nul_cstr (r : List Char) : nul ∉ cstr r := by
  intro h
  have := List.mem_takeWhile_imp h
  simp at this

theorem copyVec_spec (v : StrVec) (hv : Inv v) : ∃ w, copyVec v = .ok w ∧ Inv w ∧ texts w = texts v := by
  unfold copyVec
  by_cases h0 : v.number > 0
  · rw [if_pos h0]
    have hlen : v.length ≠ 0 := by
      obtain ⟨r, hr⟩ : ∃ r, r ∈ v.rows := List.exists_mem_of_length_pos (by rw [hv.1]; exact h0)
      have := (hv.2 r hr)
      have := List.length_pos_of_mem this.2
      omega
    obtain ⟨a, ea, ia, la, na, -, ta⟩ := alloc_texts v.number v.length (by omega) hlen
    obtain ⟨w, ew, iw, -, tw⟩ := fillFrom_spec (v.rows.map cstr) (by intro s hs; obtain ⟨r, -, rfl⟩ := List.mem_map.1 hs; exact nul_cstr r) a ia la [] v.number
      (by simpa using ta)
    rw [ea]
    refine ⟨w, ew, iw, ?_⟩
    rw [tw]
    simp [hv.1, texts]
  · rw [if_neg h0]
    refine ⟨_, rfl, ⟨rfl, by simp [StrVec.empty]⟩, ?_⟩
    have : v.rows = [] := List.length_eq_zero_iff.1 (by rw [hv.1]; omega)
    simp [texts, this, StrVec.empty]

/-- Options as the program makes them: driver and extension are texts, tags and values are vectors of the same number of elements. -/
def Good (o : Opt) : Prop :=
  (∃ d, o.driver = some d ∧ d ≠ [] ∧ nul ∉ d) ∧ (∃ e, o.extension = some e ∧ e ≠ [] ∧ nul ∉ e) ∧ Inv o.tags ∧ Inv o.vals ∧ o.tags.number = o.vals.number

theorem copy_spec (o : Opt) (h : Good o) : ∃ c, copy o = .ok c ∧ Good c ∧ c.driver = o.driver ∧ c.extension = o.extension ∧ texts c.tags = texts o.tags ∧ texts c.vals = texts o.vals := by
  obtain ⟨⟨d, hd, hd0, hdn⟩, ⟨e, he, he0, hen⟩, it, iv, hn⟩ := h
  obtain ⟨bd, ed, cd⟩ := fillString_word hd0 hdn
  obtain ⟨be, ee, ce⟩ := fillString_word he0 hen
  obtain ⟨t, et, jt, tt⟩ := copyVec_spec o.tags it
  obtain ⟨v, ev, jv, tv⟩ := copyVec_spec o.vals iv
  refine ⟨⟨some d, some e, t, v⟩, ?_, ⟨⟨d, rfl, hd0, hdn⟩, ⟨e, rfl, he0, hen⟩, jt, jv, ?_⟩, hd.symm, he.symm, tt, tv⟩
  · unfold copy
    simp only [hd, he]
    rw [ed]
    simp only [Out.bind]
    rw [ee]
    simp only [Out.bind]
    rw [if_neg (by simpa using hn), et]
    simp only
    rw [ev]
    simp only [cd, ce]
  · simp only
    rw [← jt.1, ← jv.1]
    have a1 := congrArg List.length tt
    have a2 := congrArg List.length tv
    simp only [texts, List.length_map] at a1 a2
    rw [a1, a2, it.1, iv.1, hn]

/-- **C138** Options are copied from brick to brick any number of times: driver, extension and what GDAL is given stay the same. -/
theorem c138_copies (n : Nat) (o : Opt) (h : Good o) :
    ∃ c, copies n o = .ok c ∧ c.driver = o.driver ∧ c.extension = o.extension ∧ passed c = passed o ∧ passed o ≠ none := by
  have hp : ∀ o, Good o → passed o = some ((texts o.tags).zip (texts o.vals)) := by
    intro o ho
    unfold passed
    rw [if_neg (by simpa using ho.2.2.2.2)]
    rfl
  suffices hs : ∀ o, Good o → ∃ c, copies n o = .ok c ∧ Good c ∧ c.driver = o.driver ∧ c.extension = o.extension ∧ texts c.tags = texts o.tags ∧ texts c.vals = texts o.vals by
    obtain ⟨c, e, g, h1, h2, h3, h4⟩ := hs o h
    exact ⟨c, e, h1, h2, by rw [hp c g, hp o h, h3, h4], by rw [hp o h]; simp⟩
  induction n with
  | zero => exact fun o h => ⟨o, rfl, h, rfl, rfl, rfl, rfl⟩
  | succ n ih =>
    intro o h
    obtain ⟨c, e, g, h1, h2, h3, h4⟩ := copy_spec o h
    obtain ⟨c', e', g', k1, k2, k3, k4⟩ := ih c g
    exact ⟨c', by rw [copies, e]; exact e', g', by rw [k1, h1], by rw [k2, h2], by rw [k3, h3], by rw [k4, h4]⟩

/-- The documented options of the output formats. -/
def documented : Format → Option (String × String × List (String × String))
  | .envi => some ("ENVI", "dat", [])
  | .gtiff => some ("GTiff", "tif", [("COMPRESS", "ZSTD"), ("PREDICTOR", "2"), ("INTERLEAVE", "BAND"), ("BIGTIFF", "YES"), ("TILED", "YES"), ("BLOCKXSIZE", "256"), ("BLOCKYSIZE", "256")])
  | .cog => some ("COG", "tif", [("COMPRESS", "ZSTD"), ("PREDICTOR", "YES"), ("INTERLEAVE", "TILE"), ("BLOCKSIZE", "256"), ("BIGTIFF", "YES"), ("OVERVIEW_RESAMPLING", "AVERAGE")])
  | .jpeg => some ("JPEG", "jpg", [])
  | .custom => none

instance (v : StrVec) : Decidable (Inv v) := inferInstanceAs (Decidable (_ ∧ _))

/-- **C138** The fixed formats: whatever the number of copies, every brick is written with the documented driver, extension and options. -/
theorem c138_formats (f : Format) (d e : String) (l : List (String × String)) (h : documented f = some (d, e, l)) (n : Nat) :
    ∃ o c, defaults f = .ok o ∧ copies n o = .ok c ∧ c.driver = some d.toList ∧ c.extension = some e.toList ∧
      passed c = some (l.map fun p => (p.1.toList, p.2.toList)) := by
  have key : ∃ o, defaults f = .ok o ∧ Good o ∧ o.driver = some d.toList ∧ o.extension = some e.toList ∧ passed o = some (l.map fun p => (p.1.toList, p.2.toList)) := by
    have good : ∀ o : Opt, ∀ d e : List Char, o.driver = some d → o.extension = some e → (d ≠ [] ∧ nul ∉ d) ∧ (e ≠ [] ∧ nul ∉ e) ∧ Inv o.tags ∧ Inv o.vals ∧ o.tags.number = o.vals.number → Good o :=
      fun o d e h1 h2 h => ⟨⟨d, h1, h.1.1, h.1.2⟩, ⟨e, h2, h.2.1.1, h.2.1.2⟩, h.2.2⟩
    cases f with
    | envi => cases h; exact ⟨_, rfl, good _ _ _ rfl rfl (by decide +kernel), rfl, rfl, rfl⟩
    | gtiff => cases h; exact ⟨_, rfl, good _ _ _ rfl rfl (by decide +kernel), rfl, rfl, by decide +kernel⟩
    | cog => cases h; exact ⟨_, rfl, good _ _ _ rfl rfl (by decide +kernel), rfl, rfl, by decide +kernel⟩
    | jpeg => cases h; exact ⟨_, rfl, good _ _ _ rfl rfl (by decide +kernel), rfl, rfl, rfl⟩
    | custom => cases h
  obtain ⟨o, e0, g, h1, h2, h3⟩ := key
  obtain ⟨c, ec, k1, k2, k3, -⟩ := c138_copies n o g
  exact ⟨o, c, e0, ec, by rw [k1, h1], by rw [k2, h2], by rw [k3, h3]⟩

/-- **C138** The options of a file are copied like those of the fixed formats. -/
theorem c138_custom (ls : List (List Char × List Char)) (h : ∀ p ∈ ls, Word p.1 ∧ Word p.2) (d e : List Char)
    (hd : valuesOf "DRIVER" ls = [d]) (he : valuesOf "EXTENSION" ls = [e]) (h1 : others ls ≠ []) (n : Nat) :
    ∃ o c, parse (some (fileText ls)) = .ok o ∧ copies n o = .ok c ∧ c.driver = some d ∧ c.extension = some e ∧ passed c = some (others ls) := by
  obtain ⟨o, e1, e2, e3, e4⟩ := c137_options_partial ls h d e hd he h1
  have wd : ∀ tag v, v ∈ valuesOf tag ls → Word v := by
    intro tag v hv
    obtain ⟨p, hp, rfl⟩ := List.mem_map.1 hv
    exact (h p (List.mem_of_mem_filter hp)).2
  have hdw := wd "DRIVER" d (by rw [hd]; simp)
  have hew := wd "EXTENSION" e (by rw [he]; simp)
  have hlen : 2 < ls.length := by
    by_contra hc
    have : parse (some (fileText ls)) = .exit := by
      by_cases hne : ls = []
      · subst hne; rfl
      · unfold parse
        rw [read_fileText ls hne h]
        simp only
        rw [if_pos (by omega)]
    rw [this] at e1
    cases e1
  obtain ⟨o', e1', -, -, i1, i2, e4'⟩ := (parse_spec ls hlen h).2 d e (by rw [hd]; rfl) (by rw [he]; rfl)
  rw [e1] at e1'
  cases e1'
  have hn : o.tags.number = o.vals.number := by
    by_contra hc
    simp [passed, hc] at e4
  obtain ⟨c, ec, k1, k2, k3, -⟩ := c138_copies n o ⟨⟨d, e2, hdw.1, hdw.nul⟩, ⟨e, e3, hew.1, hew.nul⟩, i1, i2, hn⟩
  exact ⟨o, c, e1, ec, by rw [k1, e2], by rw [k2, e3], by rw [k3, e4]⟩

/-! ## Option arrays -/

/-- C139, violated: neither of the arrays with the options for the reprojection and the rasterization of vector data has an end, whatever the projection: GDAL reads behind them. -/
theorem c139_terminator_violated (proj : List Char) : walk (translateArgs proj) = .ub ∧ walk burnArgs = .ub := ⟨rfl, rfl⟩

/-- C139: an array is read completely, and only its own elements, if and only if it has a NULL pointer; then the options up to it are used. -/
theorem c139_arrays_partial (l : List (Option (List Char))) :
    (none ∈ l ↔ walk l ≠ .ub) ∧ ∀ (o : List (List Char)) (r : List (Option (List Char))), l = o.map some ++ none :: r → walk l = .ok o := by
  constructor
  · induction l with
    | nil => simp [walk]
    | cons a l ih =>
      cases a with
      | none => simp [walk]
      | some s =>
        simp only [List.mem_cons, reduceCtorEq, false_or, walk, ih]
        cases walk l <;> simp [Out.bind]
  · intro o r h
    subst h
    induction o with
    | nil => rfl
    | cons a o ih => simp [walk, ih, Out.bind]

/-- C137: a file that cannot be read, and a file without any definition, end the program with an error. -/
theorem c137_unreadable : parse none = .exit ∧ ∀ text, Cube.readTagvalue (some text) = .exit → parse (some text) = .exit := by
  refine ⟨rfl, ?_⟩
  intro text h
  unfold parse
  rw [h]

/-- For example, an empty file. -/
example : parse (some []) = .exit := c137_unreadable.2 [] rfl

end Verif.Gdalopt
