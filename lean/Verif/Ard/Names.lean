import Verif.Ard.Model
import Verif.Ard.Spec
import Verif.Str.Props2
import Verif.Date.Props
import Verif.Season.Props
import Mathlib.Data.List.Infix
import Mathlib.Tactic.IntervalCases

/-!
# Selection of Level 2 data: theorems
-/

namespace Verif.Ard

open Verif.Str (Out strstr)
open Verif.Ard.Spec
open Verif.Date (IsDigitOf Consistent)
open Verif.Date.Spec (ValidMD dayOfYear)

/-! ## Characters -/

theorem alnum_facts {c : Char} (h : c.isAlphanum = true) :
    c ≠ '_' ∧ c ≠ '.' ∧ c ≠ '/' ∧ c ≠ Str.nul ∧ Date.isSep c = false ∧ Date.isCut c = false := by
  have ne : ∀ x : Char, x.isAlphanum = false → c ≠ x := by
    intro x hx e
    rw [e, hx] at h
    exact absurd h (by decide)
  refine ⟨ne _ (by decide), ne _ (by decide), ne _ (by decide), ne _ (by decide), ?_, ?_⟩
  · simp [Date.isSep, ne ' ' (by decide), ne ',' (by decide), ne ';' (by decide), ne '-' (by decide), ne '_' (by decide), ne '.' (by decide)]
  · simp [Date.isCut, ne '\r' (by decide), ne '\n' (by decide), ne '#' (by decide)]

theorem digitChar_isDigitOf {v : Nat} (h : v < 10) : IsDigitOf (Nat.digitChar v) v := by
  interval_cases v <;> exact ⟨by decide, by decide⟩

theorem digitChar_digit {v : Nat} (h : v < 10) : (Nat.digitChar v).isDigit = true := (digitChar_isDigitOf h).1

theorem date_digits {n : Name} (h : n.Ok) : ∀ c ∈ n.date, c.isDigit = true := by
  have := h.year
  obtain ⟨m1, m2, d1, d2⟩ := h.date
  have hl : Date.Spec.monthLength n.month ≤ 31 := by
    have e : (n.month : ℤ) = 1 ∨ (n.month : ℤ) = 2 ∨ (n.month : ℤ) = 3 ∨ (n.month : ℤ) = 4 ∨ (n.month : ℤ) = 5 ∨ (n.month : ℤ) = 6 ∨
        (n.month : ℤ) = 7 ∨ (n.month : ℤ) = 8 ∨ (n.month : ℤ) = 9 ∨ (n.month : ℤ) = 10 ∨ (n.month : ℤ) = 11 ∨ (n.month : ℤ) = 12 := by omega
    rcases e with e | e | e | e | e | e | e | e | e | e | e | e <;> rw [e] <;> decide
  intro c hc
  simp only [Name.date, List.map_cons, List.map_nil, List.mem_cons, List.not_mem_nil, or_false] at hc
  rcases hc with e | e | e | e | e | e | e | e <;> rw [e] <;> apply digitChar_digit <;> omega

theorem date_alnum {n : Name} (h : n.Ok) : ∀ c ∈ n.date, c.isAlphanum = true := by
  intro c hc
  have := date_digits h c hc
  simp [Char.isAlphanum, this]

theorem text_chars {n : Name} (h : n.Ok) : ∀ c ∈ n.text, c.isAlphanum = true ∨ c = '_' ∨ c = '.' := by
  intro c hc
  simp only [Name.text, List.mem_append, List.mem_cons] at hc
  rcases hc with hc | hc | hc | hc | hc | hc | hc | hc | hc
  · exact Or.inl (date_alnum h c hc)
  · exact Or.inr (Or.inl hc)
  · exact Or.inl (h.level.2 c hc)
  · exact Or.inr (Or.inl hc)
  · exact Or.inl (h.sensor.2 c hc)
  · exact Or.inr (Or.inl hc)
  · exact Or.inl (h.product.2 c hc)
  · exact Or.inr (Or.inr hc)
  · exact Or.inl (h.ext.2 c hc)

theorem text_not {n : Name} (h : n.Ok) : '/' ∉ n.text ∧ Str.nul ∉ n.text := by
  constructor <;> intro hc <;> rcases text_chars h _ hc with e | e | e <;> revert e <;> decide

theorem text_ne {n : Name} : n.text ≠ [] := by simp [Name.text, Name.date]

/-! ## Substrings -/

theorem prefix_sep {w a b : List Char} {c : Char} (hw : c ∉ w) (h : w <+: a ++ c :: b) : w <+: a := by
  induction a generalizing w with
  | nil =>
    cases w with
    | nil => exact List.nil_prefix
    | cons x w =>
      rw [List.nil_append, List.cons_prefix_cons] at h
      exact absurd (by rw [h.1]; exact List.mem_cons_self) hw
  | cons y a ih =>
    cases w with
    | nil => exact List.nil_prefix
    | cons x w =>
      rw [List.cons_append, List.cons_prefix_cons] at h
      rw [List.cons_prefix_cons]
      exact ⟨h.1, ih (fun hm => hw (List.mem_cons_of_mem _ hm)) h.2⟩

theorem infix_sep {w a b : List Char} {c : Char} (hw : c ∉ w) : w <:+: a ++ c :: b ↔ w <:+: a ∨ w <:+: b := by
  induction a with
  | nil =>
    rw [List.nil_append, List.infix_cons_iff]
    constructor
    · rintro (h | h)
      · have := prefix_sep (a := []) hw h
        rw [List.prefix_nil] at this
        rw [this]
        exact Or.inl (List.nil_infix)
      · exact Or.inr h
    · rintro (h | h)
      · rw [List.infix_nil] at h
        rw [h]
        exact Or.inr List.nil_infix
      · exact Or.inr h
  | cons y a ih =>
    rw [List.cons_append, List.infix_cons_iff, List.infix_cons_iff, ih]
    constructor
    · rintro (h | h | h)
      · exact Or.inl (Or.inl (prefix_sep (a := y :: a) hw h))
      · exact Or.inl (Or.inr h)
      · exact Or.inr h
    · rintro ((h | h) | h)
      · exact Or.inl (h.trans (by rw [← List.cons_append]; exact List.prefix_append _ _))
      · exact Or.inr (Or.inl h)
      · exact Or.inr (Or.inr h)

/-- Where a word occurs in a name. -/
theorem infix_text {n : Name} {w : List Char} (h1 : '_' ∉ w) (h2 : '.' ∉ w) :
    w <:+: n.text ↔ w <:+: n.date ∨ w <:+: n.level ∨ w <:+: n.sensor ∨ w <:+: n.product ∨ w <:+: n.ext := by
  rw [Name.text, infix_sep h1, infix_sep h1, infix_sep h1, infix_sep h2]

theorem strstr_iff {t w : List Char} : strstr t w = none ↔ ¬ w <:+: t := by
  constructor
  · rintro h ⟨p, s, e⟩
    exact Str.strstr_none h p s e.symm
  · intro h
    cases e : strstr t w with
    | none => rfl
    | some k =>
      have := (Str.strstr_some e).1.1
      exact absurd ⟨_, _, this.symm⟩ h

/-! ## Parts of a name -/

theorem word_part {w rest : List Char} {c : Char} (h : Part w) (hc : isFieldSep c = true) : word (w ++ c :: rest) = some (w, rest) := by
  obtain ⟨hne, ha⟩ := h
  have hs : ∀ x ∈ w, isFieldSep x = false := by
    intro x hx
    have f := alnum_facts (ha x hx)
    simp [isFieldSep, f.1, f.2.1]
  cases w with
  | nil => exact absurd rfl hne
  | cons x w =>
    have hx := hs x List.mem_cons_self
    unfold word
    have e : (x :: w ++ c :: rest).dropWhile isFieldSep = x :: w ++ c :: rest := by
      rw [List.cons_append, List.dropWhile_cons_of_neg (by simp [hx])]
    rw [e]
    simp only [List.cons_append]
    have hall : ∀ y ∈ x :: w, (!isFieldSep y) = true := fun y hy => by simp [hs y hy]
    have t := List.takeWhile_append_of_pos (p := fun c => !isFieldSep c) (l₁ := x :: w) (l₂ := c :: rest) hall
    have d := List.dropWhile_append_of_pos (p := fun c => !isFieldSep c) (l₁ := x :: w) (l₂ := c :: rest) hall
    rw [List.cons_append] at t d
    rw [t, d, List.takeWhile_cons_of_neg (by simp [hc]), List.dropWhile_cons_of_neg (by simp [hc])]
    simp

theorem token_text {n : Name} (h : n.Ok) : token 2 n.text = some n.sensor ∧ token 3 n.text = some n.product := by
  have hd : Part n.date := ⟨by simp [Name.date], date_alnum h⟩
  have u : isFieldSep '_' = true := by decide
  have d : isFieldSep '.' = true := by decide
  constructor
  · simp only [token, Name.text, word_part hd u, word_part h.level u, word_part h.sensor u, Option.bind_some, Option.map_some]
  · simp only [token, Name.text, word_part hd u, word_part h.level u, word_part h.sensor u, word_part h.product d, Option.bind_some, Option.map_some]

theorem ext_eq {e : List Char} (h0 : e ≠ []) (h1 : '/' ∉ e) (h2 : Str.nul ∉ e) (h3 : e.length < 1024) :
    ∃ name ext, Str.extension e 1024 = .ok (ext, e) ∧ name ++ ext = e ∧ '.' ∉ name ∧ (ext = [] ∨ ext.head? = some '.') := by
  obtain ⟨name, ext, -, b, c⟩ := Str.c33_extension e e 0 1024 1024 (Or.inr ⟨rfl, h1⟩) h0 h2 h3 h3 h3
  refine ⟨name, ext, ?_, c⟩
  simpa using b

theorem split_dot {a b a' b' : List Char} (ha : '.' ∉ a) (ha' : '.' ∉ a') (e : a ++ '.' :: b = a' ++ '.' :: b') : a = a' ∧ b = b' := by
  induction a generalizing a' with
  | nil =>
    cases a' with
    | nil => simpa using e
    | cons x a' =>
      simp only [List.nil_append, List.cons_append, List.cons.injEq] at e
      exact absurd (by rw [e.1]; exact List.mem_cons_self) ha'
  | cons y a ih =>
    cases a' with
    | nil =>
      simp only [List.nil_append, List.cons_append, List.cons.injEq] at e
      exact absurd (by rw [← e.1]; exact List.mem_cons_self) ha
    | cons x a' =>
      simp only [List.cons_append, List.cons.injEq] at e
      obtain ⟨p, q⟩ := ih (fun h => ha (List.mem_cons_of_mem _ h)) (fun h => ha' (List.mem_cons_of_mem _ h)) e.2
      exact ⟨by rw [e.1, p], q⟩

theorem mem_extensions {w : List Char} : '.' :: w ∈ extensions ↔ w ∈ kinds := by
  constructor
  · intro h
    simp only [extensions, List.mem_cons, List.not_mem_nil, or_false] at h
    rcases h with h | h | h | h | h <;> (have := congrArg List.tail h; simp only [List.tail_cons] at this; rw [this]; decide)
  · intro h
    simp only [kinds, List.mem_cons, List.not_mem_nil, or_false] at h
    rcases h with h | h | h | h | h <;> rw [h] <;> decide

theorem nil_not_mem : ([] : List Char) ∉ extensions := by decide

/-- The extension of a file, in the terms of the specification. -/
theorem ext_dot {a b : List Char} (h1 : '/' ∉ a ++ '.' :: b) (h2 : Str.nul ∉ a ++ '.' :: b) (h3 : (a ++ '.' :: b).length < 1024) (ha : '.' ∉ a) :
    Str.extension (a ++ '.' :: b) 1024 = .ok ('.' :: b, a ++ '.' :: b) := by
  obtain ⟨name, ext, he, hs, hn, hh⟩ := ext_eq (by simp) h1 h2 h3
  rw [he]
  rcases hh with rfl | hh
  · rw [List.append_nil] at hs
    exact absurd (by rw [hs]; simp) hn
  · cases ext with
    | nil => simp at hh
    | cons x ext =>
      simp only [List.head?_cons, Option.some.injEq] at hh
      subst hh
      rw [(split_dot hn ha hs).2]

theorem text_split (n : Name) : n.text = (n.date ++ '_' :: (n.level ++ '_' :: (n.sensor ++ '_' :: n.product))) ++ '.' :: n.ext := by
  simp [Name.text]

theorem text_ext {n : Name} (h : n.Ok) : Str.extension n.text 1024 = .ok ('.' :: n.ext, n.text) := by
  have hs := h.short
  have hn := text_not h
  rw [text_split] at hs hn ⊢
  refine ext_dot hn.1 hn.2 hs ?_
  intro hc
  simp only [List.mem_append, List.mem_cons] at hc
  have no : ∀ w : List Char, (∀ c ∈ w, c.isAlphanum = true) → '.' ∉ w := fun w hw hm => (alnum_facts (hw _ hm)).2.1 rfl
  rcases hc with hc | hc | hc | hc | hc | hc | hc
  · exact no _ (date_alnum h) hc
  · exact absurd hc (by decide)
  · exact no _ h.level.2 hc
  · exact absurd hc (by decide)
  · exact no _ h.sensor.2 hc
  · exact absurd hc (by decide)
  · exact no _ h.product.2 hc

/-- The date of a name is read. -/
theorem text_date {n : Name} (h : n.Ok) (before : Date.DateT) :
    ∃ d, Date.dateFromString before n.text = .success d ∧ d.ce = n.ce ∧ d.doy = dayOfYear n.month n.day := by
  have hy := h.year
  obtain ⟨m1, m2, d1, d2⟩ := h.date
  have hl : Date.Spec.monthLength n.month ≤ 31 := by
    have e : (n.month : ℤ) = 1 ∨ (n.month : ℤ) = 2 ∨ (n.month : ℤ) = 3 ∨ (n.month : ℤ) = 4 ∨ (n.month : ℤ) = 5 ∨ (n.month : ℤ) = 6 ∨
        (n.month : ℤ) = 7 ∨ (n.month : ℤ) = 8 ∨ (n.month : ℤ) = 9 ∨ (n.month : ℤ) = 10 ∨ (n.month : ℤ) = 11 ∨ (n.month : ℤ) = 12 := by omega
    rcases e with e | e | e | e | e | e | e | e | e | e | e | e <;> rw [e] <;> decide
  have hs := h.short
  obtain ⟨d, hd, r1, r2, r3, hc⟩ := Date.c05_valid_dates_accepted before [] ('_' :: (n.level ++ '_' :: (n.sensor ++ '_' :: (n.product ++ '.' :: n.ext))))
    _ _ _ _ _ _ _ _ (n.year / 1000) (n.year / 100 % 10) (n.year / 10 % 10) (n.year % 10) (n.month / 10) (n.month % 10) (n.day / 10) (n.day % 10)
    (by simp) (Or.inr ⟨'_', _, rfl, Or.inl (by decide)⟩)
    (digitChar_isDigitOf (by omega)) (digitChar_isDigitOf (by omega)) (digitChar_isDigitOf (by omega)) (digitChar_isDigitOf (by omega))
    (digitChar_isDigitOf (by omega)) (digitChar_isDigitOf (by omega)) (digitChar_isDigitOf (by omega)) (digitChar_isDigitOf (by omega))
    hs n.year n.month n.day (by omega) (by omega) (by omega) (by omega) h.date
  refine ⟨d, hd, ?_, ?_⟩
  · rw [hc.2.2.2.2, hc.2.1, r1, r2, r3, Name.ce]
  · rw [hc.2.1, r2, r3]

/-- Selection of a well-formed name. -/
theorem judge_name {n : Name} (h : n.Ok) (r : Request) (before : Date.DateT) :
    ∃ b, judge r before n.text = .ok b ∧
      (b = true ↔ n.ext ∈ kinds ∧ r.product <:+: n.text ∧ (∃ s ∈ r.sensors, s <:+: n.text) ∧ r.first.ce ≤ n.ce ∧ n.ce ≤ r.last.ce ∧
        r.days (dayOfYear n.month n.day) = true ∧ ¬ ("LND07".toList <:+: n.text ∧ r.ignore.ce < n.ce)) := by
  obtain ⟨d, hd, hce, hdoy⟩ := text_date h before
  unfold judge
  rw [text_ext h]
  simp only [Out.bind]
  by_cases h1 : n.ext ∈ kinds
  · rw [if_neg (by rw [not_not]; exact mem_extensions.2 h1)]
    by_cases h2 : r.product <:+: n.text
    · rw [if_neg (by rw [strstr_iff, not_not]; exact h2)]
      by_cases h3 : ∃ s ∈ r.sensors, s <:+: n.text
      · rw [if_neg (by
          rw [List.all_eq_true]
          intro hall
          obtain ⟨s, hs, hi⟩ := h3
          have := hall s hs
          rw [decide_eq_true_eq, strstr_iff] at this
          exact this hi), hd]
        refine ⟨_, rfl, ?_⟩
        rw [Season.c50_images, hce, hdoy, decide_eq_true_eq, ne_eq, strstr_iff, not_not]
        simp only [h1, h2, h3, true_and]
      · rw [if_pos (by
          rw [List.all_eq_true]
          intro s hs
          rw [decide_eq_true_eq, strstr_iff]
          exact fun hi => h3 ⟨s, hs, hi⟩)]
        exact ⟨false, rfl, by simp [h3]⟩
    · rw [if_pos (strstr_iff.2 h2)]
      exact ⟨false, rfl, by simp [h2]⟩
  · rw [if_pos (fun hc => h1 (mem_extensions.1 hc))]
    exact ⟨false, rfl, by simp [h1]⟩

theorem judge_foreign {e : List Char} (h : Foreign e) (r : Request) (before : Date.DateT) : judge r before e = .ok false := by
  obtain ⟨h0, h1, h2, h3, name, ext, hn, he⟩ := h
  unfold judge
  rcases he with he | ⟨he, hk⟩
  · obtain ⟨name', ext', hx, hs, -, hh⟩ := ext_eq h0 h1 h2 h3
    rw [hx]
    have : ext' = [] := by
      rcases hh with hh | hh
      · exact hh
      · cases ext' with
        | nil => rfl
        | cons x ext' =>
          simp only [List.head?_cons, Option.some.injEq] at hh
          subst hh
          exact absurd (by rw [← he, ← hs]; simp) hn
    simp only [Out.bind]
    rw [if_pos (by rw [this]; exact nil_not_mem)]
  · subst he
    rw [ext_dot h1 h2 h3 hn]
    simp only [Out.bind]
    rw [if_pos (fun hc => hk (mem_extensions.1 hc))]

/-! ## Names as Level 2 processing writes them -/

/-- A request for the names of Level 2: three characters for the product (with a capital letter, not LEV, EVE, VEL or EL2), five for each sensor. -/
structure Usual (r : Request) : Prop where
  product : Part r.product ∧ r.product.length = 3
  capital : ∃ c ∈ r.product, c.isUpper = true
  level : ¬ r.product <:+: "LEVEL2".toList
  sensors : ∀ s ∈ r.sensors, Part s ∧ s.length = 5 ∧ (∃ c ∈ s, c.isDigit = false) ∧ s ≠ "LEVEL".toList ∧ s ≠ "EVEL2".toList

/-- What is asked for, by the parts of the name. -/
def Wanted (r : Request) (n : Name) : Prop :=
  n.ext ∈ kinds ∧ n.product = r.product ∧ n.sensor ∈ r.sensors ∧ r.first.ce ≤ n.ce ∧ n.ce ≤ r.last.ce ∧
    r.days (dayOfYear n.month n.day) = true ∧ ¬ (n.sensor = "LND07".toList ∧ r.ignore.ce < n.ce)

theorem part_no {w : List Char} (h : Part w) : '_' ∉ w ∧ '.' ∉ w :=
  ⟨fun hm => (alnum_facts (h.2 _ hm)).1 rfl, fun hm => (alnum_facts (h.2 _ hm)).2.1 rfl⟩

theorem infix_len {a b : List Char} (h : a <:+: b) (e : a.length = b.length) : a = b := h.sublist.eq_of_length e

theorem kinds_len {w : List Char} (h : w ∈ kinds) : w.length = 3 ∧ ∀ c ∈ w, c.isUpper = false := by
  simp only [kinds, List.mem_cons, List.not_mem_nil, or_false] at h
  rcases h with h | h | h | h | h <;> rw [h] <;> decide

theorem not_in_date {n : Name} (h : n.Ok) {w : List Char} (hw : ∃ c ∈ w, c.isDigit = false) : ¬ w <:+: n.date := by
  rintro hi
  obtain ⟨c, hc, hd⟩ := hw
  have := date_digits h c (hi.subset hc)
  rw [hd] at this
  exact absurd this (by decide)

theorem five_level {w : List Char} (hl : w.length = 5) (h : w <:+: "LEVEL2".toList) : w = "LEVEL".toList ∨ w = "EVEL2".toList := by
  obtain ⟨p, s, e⟩ := h
  have hlen := congrArg List.length e
  simp only [List.length_append, hl] at hlen
  have h6 : ("LEVEL2".toList).length = 6 := by decide
  rw [h6] at hlen
  cases p with
  | nil =>
    left
    have := congrArg (List.take 5) e
    rw [List.nil_append, List.take_left' hl] at this
    rw [this]; decide
  | cons x p =>
    right
    have hp : p = [] := List.length_eq_zero_iff.1 (by simp at hlen; omega)
    have hs : s = [] := List.length_eq_zero_iff.1 (by simp at hlen; omega)
    subst hp hs
    have := congrArg (List.drop 1) e
    simp only [List.append_nil, List.singleton_append, List.drop_succ_cons, List.drop_zero] at this
    rw [this]; decide

theorem sensor_in {n : Name} (h : n.Level2) (hk : n.ext ∈ kinds) {s : List Char} (hp : Part s) (hl : s.length = 5)
    (hd : ∃ c ∈ s, c.isDigit = false) (n1 : s ≠ "LEVEL".toList) (n2 : s ≠ "EVEL2".toList) : s <:+: n.text ↔ s = n.sensor := by
  rw [infix_text (part_no hp).1 (part_no hp).2]
  constructor
  · rintro (hi | hi | hi | hi | hi)
    · exact absurd hi (not_in_date h.ok hd)
    · rw [h.level] at hi
      rcases five_level hl hi with e | e
      exacts [absurd e n1, absurd e n2]
    · exact infix_len hi (by rw [hl, h.sensor])
    · have := hi.length_le
      rw [hl, h.product] at this
      omega
    · have := hi.length_le
      rw [hl, (kinds_len hk).1] at this
      omega
  · intro e
    rw [e]
    exact Or.inr (Or.inr (Or.inl List.infix_rfl))

theorem product_in {n : Name} (h : n.Level2) (hk : n.ext ∈ kinds) {r : Request} (hr : Usual r) (hs : ¬ r.product <:+: n.sensor) :
    r.product <:+: n.text ↔ n.product = r.product := by
  obtain ⟨c, hc, hu⟩ := hr.capital
  rw [infix_text (part_no hr.product.1).1 (part_no hr.product.1).2]
  constructor
  · rintro (hi | hi | hi | hi | hi)
    · refine absurd hi (not_in_date h.ok ⟨c, hc, ?_⟩)
      simp only [Char.isUpper, Char.isDigit, Bool.and_eq_true, decide_eq_true_eq] at hu ⊢
      have h1 := hu.1
      simp only [Bool.and_eq_false_iff, decide_eq_false_iff_not]
      right
      intro h2
      exact absurd (UInt32.le_trans h1 h2) (by decide)
    · rw [h.level] at hi
      exact absurd hi hr.level
    · exact absurd hi hs
    · exact (infix_len hi (by rw [hr.product.2, h.product])).symm
    · have := (kinds_len hk).2 c (hi.subset hc)
      rw [hu] at this
      exact absurd this (by decide)
  · intro e
    rw [e]
    exact Or.inr (Or.inr (Or.inr (Or.inl List.infix_rfl)))

theorem judge_level2 {n : Name} (h : n.Level2) {r : Request} (hr : Usual r) (hs : ¬ r.product <:+: n.sensor) (before : Date.DateT) :
    ∃ b, judge r before n.text = .ok b ∧ (b = true ↔ Wanted r n) := by
  obtain ⟨b, hb, hi⟩ := judge_name h.ok r before
  refine ⟨b, hb, ?_⟩
  rw [hi, Wanted]
  by_cases hk : n.ext ∈ kinds
  · rw [product_in h hk hr hs, sensor_in h hk (s := "LND07".toList) (by constructor <;> decide) (by decide) (by decide) (by decide) (by decide)]
    have e : (∃ s ∈ r.sensors, s <:+: n.text) ↔ n.sensor ∈ r.sensors := by
      constructor
      · rintro ⟨s, hm, hi⟩
        obtain ⟨p1, p2, p3, p4, p5⟩ := hr.sensors s hm
        rw [← (sensor_in h hk p1 p2 p3 p4 p5).1 hi]
        exact hm
      · intro hm
        exact ⟨_, hm, (infix_text (part_no h.ok.sensor).1 (part_no h.ok.sensor).2).2 (Or.inr (Or.inr (Or.inl List.infix_rfl)))⟩
    rw [e, eq_comm (a := "LND07".toList)]
  · simp [hk]

/-! ## The list of images -/

theorem identify_text {n : Name} (h : n.Ok) (sensors : List (List Char)) (before : Date.DateT) :
    (n.sensor ∈ sensors → ∃ k, identify sensors before n.text = .ok (n.product, k) ∧ sensors[k]? = some n.sensor ∧ ∀ j < k, sensors[j]? ≠ some n.sensor) ∧
    (n.sensor ∉ sensors → identify sensors before n.text = .exit) := by
  obtain ⟨d, hd, -, -⟩ := text_date h before
  obtain ⟨t2, t3⟩ := token_text h
  obtain ⟨-, c1, c2⟩ := Str.c31_contains sensors n.sensor
  unfold identify
  rw [hd]
  simp only [productArd, t3, sensorArd, t2, Option.bind_some]
  constructor
  · intro hm
    obtain ⟨k, hk, hg, hf⟩ := c2 hm
    refine ⟨k, ?_, hg, hf⟩
    rw [hk, if_neg (by omega)]
    simp
  · intro hm
    rw [c1 hm, if_pos (by decide)]

/-- C132: whatever the name of a file is, an image that cannot be identified ends the program with an error message; nothing undefined happens. -/
theorem c132_identify (sensors : List (List Char)) (before d : Date.DateT) (bname : List Char) (hd : Date.dateFromString before bname = .success d) :
    (∃ p k, identify sensors before bname = .ok (p, k) ∧ k < sensors.length) ∨ identify sensors before bname = .exit := by
  unfold identify
  rw [hd]
  simp only
  cases productArd bname with
  | none => exact Or.inr rfl
  | some p =>
    simp only
    cases hs : sensorArd sensors bname with
    | none => exact Or.inr rfl
    | some k =>
      refine Or.inl ⟨p, k, rfl, ?_⟩
      unfold sensorArd at hs
      cases ht : token 2 bname with
      | none => rw [ht] at hs; simp at hs
      | some w =>
        rw [ht] at hs
        obtain ⟨-, c1, c2⟩ := Str.c31_contains sensors w
        simp only [Option.bind_some] at hs
        by_cases hw : w ∈ sensors
        · obtain ⟨i, hi, hg, -⟩ := c2 hw
          rw [hi] at hs
          have : ¬ ((i : Int) < 0) := by omega
          simp at hs
          subst hs
          exact (List.getElem?_eq_some_iff.1 hg).1
        · rw [c1 hw] at hs
          simp at hs

theorem listing_spec {r : Request} {before : Date.DateT} (P : List Char → Prop) (es : List (List Char))
    (h : ∀ e ∈ es, ∃ b, judge r before e = .ok b ∧ (b = true ↔ P e)) :
    ∃ l, listing r before es = .ok l ∧ l.Sublist es ∧ ∀ e ∈ es, (e ∈ l ↔ P e) := by
  induction es with
  | nil => exact ⟨[], rfl, List.Sublist.refl _, by simp⟩
  | cons e es ih =>
    obtain ⟨b, hb, hp⟩ := h e List.mem_cons_self
    obtain ⟨l, hl, hs, hm⟩ := ih (fun x hx => h x (List.mem_cons_of_mem _ hx))
    refine ⟨if b then e :: l else l, ?_, ?_, ?_⟩
    · rw [listing, hb, hl]; rfl
    · cases b
      · exact hs.cons _
      · exact hs.cons_cons _
    · intro x hx
      rw [List.mem_cons] at hx
      by_cases hxe : x ∈ es
      · have := hm x hxe
        cases b with
        | false => simpa using this
        | true =>
          simp only [if_true, List.mem_cons, this]
          constructor
          · rintro (rfl | h1)
            · exact hp.1 rfl
            · exact h1
          · exact Or.inr
      · rcases hx with rfl | hx
        · cases b with
          | false =>
            simp only [Bool.false_eq_true, if_false]
            constructor
            · intro h1; exact absurd (hs.subset h1) hxe
            · intro h1; exact absurd (hp.2 h1) (by decide)
          | true => simp [hp.1 rfl]
        · exact absurd hx hxe

theorem identifyAll_spec {sensors : List (List Char)} {before : Date.DateT} (Q : List Char → Nat → Prop) (es : List (List Char))
    (h : ∀ e ∈ es, ∃ p k, identify sensors before e = .ok (p, k) ∧ Q e k) :
    ∃ l, identifyAll sensors before es = .ok l ∧ l.map (·.1) = es ∧ ∀ x ∈ l, Q x.1 x.2 := by
  induction es with
  | nil => exact ⟨[], rfl, rfl, by simp⟩
  | cons e es ih =>
    obtain ⟨p, k, hi, hq⟩ := h e List.mem_cons_self
    obtain ⟨l, hl, hm, hx⟩ := ih (fun x hx => h x (List.mem_cons_of_mem _ hx))
    refine ⟨(e, k) :: l, ?_, ?_, ?_⟩
    · rw [identifyAll, hi, hl]; rfl
    · simp [hm]
    · intro x hx'
      rw [List.mem_cons] at hx'
      rcases hx' with rfl | hx'
      · exact hq
      · exact hx x hx'

/-- Two names with the same text have the same parts. -/
theorem text_parts {n m : Name} (hn : n.Ok) (hm : m.Ok) (e : n.text = m.text) : n.sensor = m.sensor := by
  have a := (token_text hn).1
  have b := (token_text hm).1
  rw [e, b] at a
  exact (Option.some.inj a).symm

/-- C132: in a directory that holds Level 2 images under their documented names and files that are no images, the images that are read are those of the requested
product, sensors, kinds of files and dates; each directory entry is used at most once, in the order of the directory, with the number of its sensor in the list. -/
theorem c132_selection_partial (r : Request) (hr : Usual r) (before : Date.DateT) (entries : List (List Char))
    (h : ∀ e ∈ entries, Foreign e ∨ ∃ n : Name, n.Level2 ∧ ¬ r.product <:+: n.sensor ∧ e = n.text) :
    ∃ l, selected r before entries = .ok l ∧ (l.map (·.1)).Sublist entries ∧
      (∀ e ∈ entries, Foreign e → e ∉ l.map (·.1)) ∧
      (∀ n : Name, n.Level2 → ¬ r.product <:+: n.sensor → n.text ∈ entries → (n.text ∈ l.map (·.1) ↔ Wanted r n)) ∧
      ∀ n : Name, n.Ok → ∀ k, (n.text, k) ∈ l → r.sensors[k]? = some n.sensor ∧ ∀ j < k, r.sensors[j]? ≠ some n.sensor := by
  obtain ⟨l, hl, hs, hm⟩ := listing_spec (r := r) (before := before) (fun e => judge r before e = .ok true) entries (by
    intro e he
    rcases h e he with hf | ⟨n, h1, h2, rfl⟩
    · exact ⟨false, judge_foreign hf r before, by rw [judge_foreign hf r before]; simp⟩
    · obtain ⟨b, hb, -⟩ := judge_level2 h1 hr h2 before
      exact ⟨b, hb, by rw [hb]; simp⟩)
  have key : ∀ n : Name, n.Level2 → ¬ r.product <:+: n.sensor → (judge r before n.text = .ok true ↔ Wanted r n) := by
    intro n h1 h2
    obtain ⟨b, hb, hi⟩ := judge_level2 h1 hr h2 before
    rw [hb, ← hi]
    simp
  obtain ⟨k, hk, hkm, hkq⟩ := identifyAll_spec (sensors := r.sensors) (before := before)
    (fun e k => ∀ n : Name, n.Ok → e = n.text → r.sensors[k]? = some n.sensor ∧ ∀ j < k, r.sensors[j]? ≠ some n.sensor) l (by
      intro e he
      rcases h e (hs.subset he) with hf | ⟨n, h1, h2, rfl⟩
      · have := (hm e (hs.subset he)).1 he
        rw [judge_foreign hf r before] at this
        simp at this
      · have hw := (key n h1 h2).1 ((hm _ (hs.subset he)).1 he)
        obtain ⟨k, hk, hg, hf⟩ := (identify_text h1.ok r.sensors before).1 hw.2.2.1
        refine ⟨_, k, hk, ?_⟩
        intro m hm e
        rw [← text_parts h1.ok hm e]
        exact ⟨hg, hf⟩)
  have hsel : selected r before entries = .ok k := by
    unfold selected listArd
    rw [hl]
    simp only [Out.bind]
    by_cases h0 : l.length < 1
    · rw [if_pos h0]
      have : l = [] := List.length_eq_zero_iff.1 (by omega)
      rw [this] at hkm
      rw [List.map_eq_nil_iff.1 hkm]
    · rw [if_neg h0]
      exact hk
  refine ⟨k, hsel, by rw [hkm]; exact hs, ?_, ?_, ?_⟩
  · intro e he hf
    rw [hkm, hm e he, judge_foreign hf r before]
    simp
  · intro n h1 h2 he
    rw [hkm, hm _ he, key n h1 h2]
  · intro n hn j hj
    exact hkq _ hj n hn rfl

theorem listing_append {r : Request} {before : Date.DateT} (as bs : List (List Char)) (h : ∀ e ∈ as, ∃ b, judge r before e = .ok b)
    (hb : listing r before bs = .exit) : listing r before (as ++ bs) = .exit := by
  induction as with
  | nil => exact hb
  | cons a as ih =>
    obtain ⟨b, hj⟩ := h a List.mem_cons_self
    rw [List.cons_append, listing, hj, ih (fun e he => h e (List.mem_cons_of_mem _ he))]
    rfl

/-- C132, violated: a file that is an image, with requested product and sensor somewhere in its name, but whose first word is not eight characters long
(e.g. mosaic_LND08_BOA.tif), is not ignored: the program ends, whatever else is in the directory. -/
theorem c132_foreign_violated (r : Request) (before : Date.DateT) (pre post : List (List Char)) (a b s w : List Char)
    (hpre : ∀ e ∈ pre, Foreign e ∨ ∃ n : Name, n.Ok ∧ e = n.text)
    (h1 : '/' ∉ a ++ '.' :: b) (h2 : Str.nul ∉ a ++ '.' :: b) (h3 : (a ++ '.' :: b).length < 1024) (ha : '.' ∉ a) (hb : b ∈ kinds)
    (hp : r.product <:+: a) (hs : s ∈ r.sensors) (hi : s <:+: a)
    (hw : w.length ≠ 8) (hw' : ∀ c ∈ w, c.isAlphanum = true) (hwn : w ≠ []) (rest : List Char) (ha' : a = w ++ '_' :: rest) :
    selected r before (pre ++ (a ++ '.' :: b) :: post) = .exit := by
  have inf : ∀ x : List Char, x <:+: a → x <:+: a ++ '.' :: b := fun x hx => hx.trans (List.infix_append' [] a ('.' :: b))
  have hj : judge r before (a ++ '.' :: b) = .exit := by
    unfold judge
    rw [ext_dot h1 h2 h3 ha]
    simp only [Out.bind]
    rw [if_neg (by rw [not_not]; exact mem_extensions.2 hb), if_neg (by rw [strstr_iff, not_not]; exact inf _ hp), if_neg (by
      rw [List.all_eq_true]
      intro hall
      have := hall s hs
      rw [decide_eq_true_eq, strstr_iff] at this
      exact this (inf _ hi))]
    have ft : Date.firstToken ((a ++ '.' :: b).takeWhile (fun c => !Date.isCut c)) = some w := by
      subst ha'
      have hc : ∀ c ∈ w, (!Date.isCut c) = true := fun c hc => by simp [(alnum_facts (hw' c hc)).2.2.2.2.2]
      have hsep : ∀ c ∈ w, (!Date.isSep c) = true := fun c hc => by simp [(alnum_facts (hw' c hc)).2.2.2.2.1]
      rw [List.append_assoc, List.takeWhile_append_of_pos hc, List.cons_append, List.takeWhile_cons_of_pos (by decide)]
      unfold Date.firstToken
      cases w with
      | nil => exact absurd rfl hwn
      | cons x w =>
        have hx : Date.isSep x = false := (alnum_facts (hw' x List.mem_cons_self)).2.2.2.2.1
        rw [List.cons_append, List.dropWhile_cons_of_neg (by simp [hx])]
        simp only [Option.some.injEq]
        rw [← List.cons_append, List.takeWhile_append_of_pos hsep, List.takeWhile_cons_of_neg (by decide), List.append_nil]
    rw [Date.c05_rejected_partial before _ w h3 ft hw]
  have hl : listing r before ((a ++ '.' :: b) :: post) = .exit := by
    rw [listing, hj]; rfl
  have := listing_append (r := r) (before := before) pre ((a ++ '.' :: b) :: post) (by
    intro e he
    rcases hpre e he with hf | ⟨n, hn, rfl⟩
    · exact ⟨_, judge_foreign hf r before⟩
    · obtain ⟨b, hb, -⟩ := judge_name hn r before
      exact ⟨b, hb⟩) hl
  unfold selected listArd
  rw [this]
  rfl

/-- C132, violated: product and sensor are searched anywhere in the name. An image whose product field only contains the requested product is read as if it were
the requested product; and the program ends if the sensor field of an image contains a requested sensor without being one. -/
theorem c132_substring_violated (r : Request) (before : Date.DateT) (n : Name) (hn : n.Ok) (hk : n.ext ∈ kinds) (hp : r.product <:+: n.product)
    (hw : r.first.ce ≤ n.ce ∧ n.ce ≤ r.last.ce ∧ r.days (dayOfYear n.month n.day) = true ∧ n.ce ≤ r.ignore.ce) :
    (n.sensor ∈ r.sensors → ∃ k, selected r before [n.text] = .ok [(n.text, k)]) ∧
    ((∃ s ∈ r.sensors, s <:+: n.sensor) → n.sensor ∉ r.sensors → selected r before [n.text] = .exit) := by
  have ip : ∀ w : List Char, w <:+: n.product → w <:+: n.text := fun w h => h.trans ⟨n.date ++ '_' :: (n.level ++ '_' :: (n.sensor ++ ['_'])), '.' :: n.ext, by simp [Name.text]⟩
  have is : ∀ w : List Char, w <:+: n.sensor → w <:+: n.text := fun w h => h.trans ⟨n.date ++ '_' :: (n.level ++ ['_']), '_' :: (n.product ++ '.' :: n.ext), by simp [Name.text]⟩
  obtain ⟨b, hb, hi⟩ := judge_name hn r before
  have sel : (∃ s ∈ r.sensors, s <:+: n.sensor) → selected r before [n.text] = identifyAll r.sensors before [n.text] := by
    rintro ⟨s, hs, hss⟩
    have : b = true := hi.2 ⟨hk, ip _ hp, ⟨s, hs, is _ hss⟩, hw.1, hw.2.1, hw.2.2.1, fun h => absurd h.2 (by omega)⟩
    unfold selected listArd
    simp only [listing, hb, this, Out.bind]
    rfl
  obtain ⟨i1, i2⟩ := identify_text hn r.sensors before
  constructor
  · intro hm
    obtain ⟨k, hk, -⟩ := i1 hm
    refine ⟨k, ?_⟩
    rw [sel ⟨_, hm, List.infix_rfl⟩]
    simp only [identifyAll, hk, Out.bind]
  · intro hs hm
    rw [sel hs]
    simp only [identifyAll, i2 hm, Out.bind]

end Verif.Ard
