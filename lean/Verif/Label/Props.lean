import Verif.Label.Model
import Verif.Str.Props2
import Verif.Date.Props
import Verif.Udf.Lemmas

/-!
C297: the labels that a user-defined function gets. C298: the names and dates of its output bands.
-/

namespace Verif.Label

open Verif.Str

/-! ## Texts in an array -/

/-- A text in an element of 1024 bytes. -/
def pad (t : List Char) : List Char := t ++ List.replicate (1024 - t.length) nul

theorem pad_length {t : List Char} (h : t.length < 1024) : (pad t).length = 1024 := by
  unfold pad
  rw [List.length_append, List.length_replicate]
  omega

theorem copy_pad (dst t : List Char) (hd : 1024 ≤ dst.length) (ht : t.length < 1024) :
    copyString dst 1024 t = .ok (pad t ++ dst.drop 1024) := by
  have e : (t ++ List.replicate 1024 nul).take 1024 = pad t := by
    unfold pad
    rw [List.take_append, List.take_of_length_le (by omega), List.take_replicate]
    congr 2
    omega
  unfold copyString
  rw [if_neg (by omega)]
  dsimp only
  rw [if_neg (by decide), e, if_neg]
  rw [not_not, List.getElem?_append_left (by rw [pad_length ht]; decide)]
  unfold pad
  rw [List.getElem?_append_right (by omega), List.getElem?_replicate, if_pos (by omega)]

theorem fill_ok : ∀ (ts : List (List Char)) (mem : List Char) (pos : Nat),
    (∀ t ∈ ts, t.length < 1024) → pos + ts.length * 1024 ≤ mem.length →
    fill ts mem pos = .ok (mem.take pos ++ ts.flatMap pad ++ mem.drop (pos + ts.length * 1024)) := by
  intro ts
  induction ts with
  | nil => intro mem pos _ _; simp [fill]
  | cons t ts ih =>
    intro mem pos ht hm
    rw [List.length_cons] at hm
    have h1 := ht t List.mem_cons_self
    rw [fill, copy_pad _ _ (by rw [List.length_drop]; omega) h1]
    show fill ts (mem.take pos ++ (pad t ++ (mem.drop pos).drop 1024)) (pos + 1024) = _
    have hl : (mem.take pos ++ pad t).length = pos + 1024 := by
      rw [List.length_append, List.length_take, pad_length h1]; omega
    rw [← List.append_assoc, List.drop_drop, ih _ _ (fun x hx => ht x (List.mem_cons_of_mem _ hx)) (by
      rw [List.length_append, hl, List.length_drop]; omega)]
    congr 1
    rw [List.take_left' hl, List.flatMap_cons, List.length_cons]
    have e : (mem.take pos ++ pad t ++ mem.drop (pos + 1024)).drop (pos + 1024 + ts.length * 1024) =
        mem.drop (pos + (ts.length + 1) * 1024) := by
      rw [← hl, ← List.drop_drop, List.drop_left, List.drop_drop, hl]
      congr 1
      omega
    rw [e]
    simp

theorem strip_pad {t : List Char} (hn : nul ∉ t) : ((pad t).reverse.dropWhile (· = nul)).reverse = t := by
  unfold pad
  rw [List.reverse_append, List.reverse_replicate, List.dropWhile_append_of_pos (by
    intro x hx
    simp [List.eq_of_mem_replicate hx])]
  rw [List.dropWhile_eq_self_iff.2]
  · rw [List.reverse_reverse]
  · intro hl
    simp only [decide_eq_true_eq]
    intro hc
    apply hn
    rw [← List.mem_reverse, ← hc]
    exact List.getElem_mem hl

theorem element_flat : ∀ (ts : List (List Char)) (rest : List Char) (i : Nat) (t : List Char),
    (∀ t ∈ ts, t.length < 1024 ∧ nul ∉ t) → ts[i]? = some t → element (ts.flatMap pad ++ rest) i = t := by
  intro ts
  induction ts with
  | nil => intro rest i t _ h; simp at h
  | cons s ts ih =>
    intro rest i t ht h
    have hs := ht s List.mem_cons_self
    cases i with
    | zero =>
      simp only [List.getElem?_cons_zero, Option.some.injEq] at h
      subst h
      unfold element
      rw [Nat.zero_mul, List.drop_zero, List.flatMap_cons, List.append_assoc, List.take_left' (pad_length hs.1)]
      exact strip_pad hs.2
    | succ i =>
      rw [List.getElem?_cons_succ] at h
      have := ih rest i t (fun x hx => ht x (List.mem_cons_of_mem _ hx)) h
      unfold element at this ⊢
      rw [List.flatMap_cons, List.append_assoc, show (i + 1) * 1024 = 1024 + i * 1024 by omega, ← List.drop_drop,
        List.drop_left' (pad_length hs.1)]
      exact this

/-- Texts that are copied into an array of their number are read back from it. -/
theorem elements_ok (ts : List (List Char)) (mem : List Char) (ht : ∀ t ∈ ts, t.length < 1024 ∧ nul ∉ t)
    (hm : mem.length = ts.length * 1024) :
    ∃ m, fill ts mem 0 = .ok m ∧ (List.range ts.length).map (element m) = ts := by
  refine ⟨_, fill_ok ts mem 0 (fun t h => (ht t h).1) (by omega), ?_⟩
  rw [List.take_zero, List.nil_append]
  apply List.ext_getElem?
  intro i
  by_cases hi : i < ts.length
  · rw [Udf.range_map_get _ _ _ hi, element_flat ts _ i ts[i] ht (List.getElem?_eq_getElem hi),
      List.getElem?_eq_getElem hi]
  · rw [List.getElem?_eq_none (by simpa using hi), List.getElem?_eq_none (by omega)]

theorem mapOut_all {α β : Type} (f : α → Out β) (g : α → β) : ∀ l : List α, (∀ a ∈ l, f a = .ok (g a)) →
    mapOut f l = .ok (l.map g) := by
  intro l
  induction l with
  | nil => intro _; rfl
  | cons a l ih =>
    intro h
    rw [mapOut, h a List.mem_cons_self, ih (fun x hx => h x (List.mem_cons_of_mem _ hx))]
    rfl

/-! ## C297 -/

/-- Specification: a text of a brick, shorter than its buffer. -/
def Text (t : List Char) : Prop := t.length < 1024 ∧ nul ∉ t

theorem bandTexts_ok (first : Prod) (hd : ∀ t ∈ first.dat, Text t) (ha : ∀ t ∈ first.aux, Text t) (nbAux : Nat)
    (hx : nbAux = 0 ∨ nbAux = first.aux.length) :
    bandTexts first first.dat.length nbAux = .ok (first.dat ++ first.aux.take nbAux) := by
  have key : ∀ b ∈ List.range (first.dat.length + nbAux),
      (if b < first.dat.length then brickText first.dat b else brickText first.aux (b - first.dat.length)) =
        .ok ((first.dat ++ first.aux.take nbAux).getD b []) := by
    intro b hb
    rw [List.mem_range] at hb
    by_cases h : b < first.dat.length
    · rw [if_pos h, List.getD_eq_getElem?_getD, List.getElem?_append_left h]
      unfold brickText
      rw [List.getElem?_eq_getElem h]
      have := hd _ (List.getElem_mem h)
      exact copyText_ok _ _ this.2 this.1
    · have h2 : b - first.dat.length < first.aux.length := by omega
      rw [if_neg h, List.getD_eq_getElem?_getD, List.getElem?_append_right (by omega), List.getElem?_take,
        if_pos (by omega)]
      unfold brickText
      rw [List.getElem?_eq_getElem h2]
      have := ha _ (List.getElem_mem h2)
      exact copyText_ok _ _ this.2 this.1
  unfold bandTexts
  rw [mapOut_all _ _ _ key]
  congr 1
  have hl : (first.dat ++ first.aux.take nbAux).length = first.dat.length + nbAux := by
    rw [List.length_append, List.length_take]; omega
  apply List.ext_getElem?
  intro i
  by_cases hi : i < first.dat.length + nbAux
  · rw [Udf.range_map_get _ _ _ hi, List.getD_eq_getElem?_getD, List.getElem?_eq_getElem (by omega)]
    rfl
  · rw [List.getElem?_eq_none (by simpa using hi), List.getElem?_eq_none (by omega)]

/-- C297: in the UDF submodule, Python gets for every time step the year, month, day and sensor of the product at
this time step, and for every band its name (data bands, then auxiliary bands if they are used), whatever the new
arrays contained; nothing is written outside of the arrays. -/
theorem c297_python (first : Prod) (rest : List Prod) (nbAux : Nat) (smem bmem : List Char)
    (hs : ∀ p ∈ first :: rest, Text p.sensor) (hd : ∀ t ∈ first.dat, Text t) (ha : ∀ t ∈ first.aux, Text t)
    (hx : nbAux = 0 ∨ nbAux = first.aux.length)
    (h1 : smem.length = (first :: rest).length * 1024) (h2 : bmem.length = (first.dat.length + nbAux) * 1024) :
    pyUdf (first :: rest) first.dat.length nbAux smem bmem =
      .ok ⟨(first :: rest).map (fun p => p.date.1), (first :: rest).map (fun p => p.date.2.1),
        (first :: rest).map (fun p => p.date.2.2), (first :: rest).map (fun p => p.sensor),
        first.dat ++ first.aux.take nbAux⟩ := by
  have hb : (first.dat ++ first.aux.take nbAux).length = first.dat.length + nbAux := by
    rw [List.length_append, List.length_take]; omega
  obtain ⟨m1, e1, g1⟩ := elements_ok ((first :: rest).map (fun p => p.sensor)) smem (by
    intro t ht
    obtain ⟨p, hp, rfl⟩ := List.mem_map.1 ht
    exact hs p hp) (by rw [List.length_map]; exact h1)
  obtain ⟨m2, e2, g2⟩ := elements_ok (first.dat ++ first.aux.take nbAux) bmem (by
    intro t ht
    rcases List.mem_append.1 ht with h | h
    · exact hd t h
    · exact ha t (List.mem_of_mem_take h)) (by rw [hb]; exact h2)
  rw [List.length_map] at g1
  rw [hb] at g2
  unfold pyUdf
  rw [mapOut_all _ (fun p => p.sensor) _ (fun p hp => copyText_ok _ _ (hs p hp).2 (hs p hp).1)]
  simp only [Out.bind]
  rw [e1]
  simp only []
  rw [bandTexts_ok first hd ha nbAux hx]
  simp only []
  rw [e2]
  simp only []
  rw [g1, g2]

/-- C297: R gets the same labels as Python. -/
theorem c297_r (first : Prod) (rest : List Prod) (nbAux : Nat) (smem bmem : List Char)
    (hs : ∀ p ∈ first :: rest, Text p.sensor) (hd : ∀ t ∈ first.dat, Text t) (ha : ∀ t ∈ first.aux, Text t)
    (hx : nbAux = 0 ∨ nbAux = first.aux.length)
    (h1 : smem.length = (first :: rest).length * 1024) (h2 : bmem.length = (first.dat.length + nbAux) * 1024) :
    rUdf (first :: rest) first.dat.length nbAux = pyUdf (first :: rest) first.dat.length nbAux smem bmem := by
  rw [c297_python first rest nbAux smem bmem hs hd ha hx h1 h2]
  unfold rUdf
  rw [mapOut_all _ (fun p => p.sensor) _ (fun p hp => copyText_ok _ _ (hs p hp).2 (hs p hp).1)]
  simp only [Out.bind]
  rw [bandTexts_ok first hd ha nbAux hx]

/-- C297: in the TSA submodule, both languages get the dates and names of the interpolated time steps, and the name
of the index as the only band. -/
theorem c297_tsa (dates : List (Int × Int × Int)) (names : List (List Char)) (index : List Char)
    (smem bmem : List Char) (hn : ∀ t ∈ names, Text t) (hi : Text index) (hl : names.length = dates.length)
    (h1 : smem.length = dates.length * 1024) (h2 : bmem.length = 1024) :
    pyTsa dates names index smem bmem =
      .ok ⟨dates.map (fun d => d.1), dates.map (fun d => d.2.1), dates.map (fun d => d.2.2), names, [index]⟩ ∧
    pyTsa dates names index smem bmem = .ok (rTsa dates names index) := by
  obtain ⟨m1, e1, g1⟩ := elements_ok names smem hn (by rw [hl]; exact h1)
  obtain ⟨m2, e2, g2⟩ := elements_ok [index] bmem (by
    intro t ht
    rw [List.mem_singleton] at ht
    subst ht
    exact hi) (by rw [h2, List.length_singleton])
  have key : pyTsa dates names index smem bmem =
      .ok ⟨dates.map (fun d => d.1), dates.map (fun d => d.2.1), dates.map (fun d => d.2.2), names, [index]⟩ := by
    unfold pyTsa
    rw [e1]
    simp only [Out.bind]
    rw [e2]
    simp only []
    rw [hl] at g1
    rw [g1]
    have : [element m2 0] = [index] := g2
    rw [this]
  exact ⟨key, key⟩

example : rUdf [⟨(2018, 5, 1), "LND08".toList, ["BLUE".toList, "RED".toList], ["VZN".toList]⟩,
    ⟨(2018, 6, 2), "SEN2A".toList, ["BLUE".toList, "RED".toList], ["VZN".toList]⟩] 2 1 =
    .ok ⟨[2018, 2018], [5, 6], [1, 2], ["LND08".toList, "SEN2A".toList],
      ["BLUE".toList, "RED".toList, "VZN".toList]⟩ := by decide +kernel

example : ∃ smem bmem : List Char, pyUdf [⟨(2018, 5, 1), "LND08".toList, ["BLUE".toList], []⟩] 1 0 smem bmem =
    .ok ⟨[2018], [5], [1], ["LND08".toList], ["BLUE".toList]⟩ :=
  ⟨List.replicate 1024 'x', List.replicate 1024 'y', c297_python ⟨(2018, 5, 1), "LND08".toList, ["BLUE".toList], []⟩ [] 0
    _ _ (by
      intro p hp
      rw [List.mem_singleton] at hp
      subst hp
      exact ⟨by decide, by decide⟩) (by
      intro p hp
      rw [List.mem_singleton] at hp
      subst hp
      exact ⟨by decide, by decide⟩) (by intro t ht; cases ht) (Or.inl rfl)
    (by rw [List.length_replicate]; rfl) (by rw [List.length_replicate]; rfl)⟩

/-! ## C298 -/

theorem alpha_facts {c : Char} (h : c.isAlpha = true) :
    c.isDigit = false ∧ Date.isSpace c = false ∧ c ≠ '-' ∧ c ≠ '+' := by
  have h' : (65 ≤ c.toNat ∧ c.toNat ≤ 90) ∨ (97 ≤ c.toNat ∧ c.toNat ≤ 122) := by
    simp only [Char.isAlpha, Char.isUpper, Char.isLower, Bool.or_eq_true, decide_eq_true_eq, Bool.and_eq_true] at h
    rcases h with h | h
    · left; exact ⟨by simpa [UInt32.le_iff_toNat_le] using h.1, by simpa [UInt32.le_iff_toNat_le] using h.2⟩
    · right; exact ⟨by simpa [UInt32.le_iff_toNat_le] using h.1, by simpa [UInt32.le_iff_toNat_le] using h.2⟩
  have ne : ∀ d : Char, (d.toNat < 65) → c ≠ d := by
    rintro d hd rfl
    omega
  refine ⟨?_, ?_, ne _ (by decide), ne _ (by decide)⟩
  · rw [Bool.eq_false_iff]
    intro hc
    simp only [Char.isDigit, Bool.and_eq_true, decide_eq_true_eq] at hc
    have h2 : c.toNat ≤ 57 := by simpa [UInt32.le_iff_toNat_le] using hc.2
    omega
  · unfold Date.isSpace
    simp only [Bool.or_eq_false_iff, decide_eq_false_iff_not]
    exact ⟨⟨⟨⟨⟨ne _ (by decide), ne _ (by decide)⟩, ne _ (by decide)⟩, ne _ (by decide)⟩, ne _ (by decide)⟩,
      ne _ (by decide)⟩

/-- One band whose name leaves the date `d`. -/
theorem outBands_cons (name : List Char) (rest : List (List Char)) (date d : Date.DateT) (ht : Text name)
    (h : Date.dateFromString date name = .cancel d ∨ Date.dateFromString date name = .success d) :
    outBands (name :: rest) date = (outBands rest d).bind fun r => .ok ((name, d) :: r) := by
  rw [outBands, copyText_ok _ _ ht.2 ht.1]
  simp only [Out.bind]
  rcases h with h | h <;> rw [h]

/-- Specification: the characters that separate words in a name. -/
def seps : List Char := [' ', ',', ';', '-', '_', '.']

/-- Specification: the characters that end a name. -/
def ends : List Char := ['\r', '\n', '#']

/-- Specification: `w` is the first word of a name: separators, the word, and then nothing, a separator or an end. -/
def FirstWord (name w : List Char) : Prop :=
  ∃ pre post, name = pre ++ w ++ post ∧ (∀ c ∈ pre, c ∈ seps) ∧ w ≠ [] ∧ (∀ c ∈ w, c ∉ seps ∧ c ∉ ends) ∧
    (post = [] ∨ ∃ c cs, post = c :: cs ∧ (c ∈ seps ∨ c ∈ ends))

/-- Specification: a word of the eight digits of a date, year, month and day. -/
def DateWord (w : List Char) (y m d : Int) : Prop :=
  ∃ c1 c2 c3 c4 c5 c6 c7 c8 v1 v2 v3 v4 v5 v6 v7 v8, w = [c1, c2, c3, c4, c5, c6, c7, c8] ∧
    Date.IsDigitOf c1 v1 ∧ Date.IsDigitOf c2 v2 ∧ Date.IsDigitOf c3 v3 ∧ Date.IsDigitOf c4 v4 ∧
    Date.IsDigitOf c5 v5 ∧ Date.IsDigitOf c6 v6 ∧ Date.IsDigitOf c7 v7 ∧ Date.IsDigitOf c8 v8 ∧
    y = v1 * 1000 + v2 * 100 + v3 * 10 + v4 ∧ m = v5 * 10 + v6 ∧ d = v7 * 10 + v8 ∧
    1900 ≤ y ∧ y ≤ 2099 ∧ Date.Spec.ValidMD m d

/-- Specification: the date that a name stands for: that of eight digits at its start, or none (the record of
zeros) if its first word does not have eight characters. -/
def Dated (name : List Char) (r : Date.DateT) : Prop :=
  ∃ w, FirstWord name w ∧
    ((w.length ≠ 8 ∧ r = ⟨0, 0, 0, 0, 0, 0, 0, 0, 0, 0, 0⟩) ∨ DateWord w r.year r.month r.day)

theorem isSep_iff {c : Char} : Date.isSep c = true ↔ c ∈ seps := by
  simp [Date.isSep, seps, or_assoc]

theorem isCut_iff {c : Char} : Date.isCut c = true ↔ c ∈ ends := by
  simp [Date.isCut, ends, or_assoc]

theorem sep_not_end {c : Char} (h : c ∈ seps) : c ∉ ends := by
  simp only [seps, List.mem_cons, List.not_mem_nil, or_false] at h
  rcases h with rfl | rfl | rfl | rfl | rfl | rfl <;> decide

theorem token {name w : List Char} (h : FirstWord name w) :
    Date.firstToken (name.takeWhile (fun c => !Date.isCut c)) = some w := by
  obtain ⟨pre, post, rfl, hp, h0, hw, ht⟩ := h
  have hcut : ∀ c ∈ pre ++ w, (!Date.isCut c) = true := by
    intro c hc
    rw [Bool.not_eq_true', Bool.eq_false_iff, ne_eq, isCut_iff]
    rcases List.mem_append.1 hc with h | h
    · exact sep_not_end (hp c h)
    · exact (hw c h).2
  rw [List.takeWhile_append_of_pos hcut]
  have hpost : post.takeWhile (fun c => !Date.isCut c) = [] ∨
      ∃ c cs, post.takeWhile (fun c => !Date.isCut c) = c :: cs ∧ c ∈ seps := by
    rcases ht with rfl | ⟨c, cs, rfl, h⟩
    · exact Or.inl rfl
    · by_cases hc : c ∈ ends
      · left
        rw [List.takeWhile_cons, if_neg (by rw [isCut_iff.2 hc]; decide)]
      · right
        refine ⟨c, cs.takeWhile (fun c => !Date.isCut c), ?_, h.resolve_right hc⟩
        rw [List.takeWhile_cons, if_pos (by
          rw [Bool.not_eq_true', Bool.eq_false_iff, ne_eq, isCut_iff]; exact hc)]
  generalize post.takeWhile (fun c => !Date.isCut c) = q at hpost
  unfold Date.firstToken
  rw [List.append_assoc, List.dropWhile_append_of_pos (fun c hc => isSep_iff.2 (hp c hc))]
  have hns : ∀ c ∈ w, (!Date.isSep c) = true := by
    intro c hc
    rw [Bool.not_eq_true', Bool.eq_false_iff, ne_eq, isSep_iff]
    exact (hw c hc).1
  cases w with
  | nil => exact absurd rfl h0
  | cons x w =>
    have hx : Date.isSep x = false := by
      have := hns x List.mem_cons_self
      rwa [Bool.not_eq_true'] at this
    rw [List.cons_append, List.dropWhile_cons, if_neg (by rw [hx]; decide)]
    dsimp only
    rw [← List.cons_append, List.takeWhile_append_of_pos hns]
    congr 1
    have : q.takeWhile (fun c => !Date.isSep c) = [] := by
      rcases hpost with rfl | ⟨c, cs, rfl, h⟩
      · rfl
      · rw [List.takeWhile_cons, if_neg (by rw [isSep_iff.2 h]; decide)]
    rw [this, List.append_nil]

/-- C298: each output band has the name that the user's function returned at its position, and the date at the start
of this name (or none), if each name starts with a date or with a word that does not have eight characters. -/
theorem c298_bands_partial : ∀ (names : List (List Char)) (junk : Date.DateT), (∀ n ∈ names, Text n) →
    (∀ n ∈ names, ∃ w, FirstWord n w ∧ (w.length ≠ 8 ∨ ∃ y m d, DateWord w y m d)) →
    ∃ dates, List.Forall₂ Dated names dates ∧ outBands names junk = .ok (names.zip dates) := by
  intro names
  induction names with
  | nil => intro junk _ _; exact ⟨[], List.Forall₂.nil, rfl⟩
  | cons n names ih =>
    intro junk ht h
    have ht1 := ht n List.mem_cons_self
    have : ∃ d, Dated n d ∧ (Date.dateFromString junk n = .cancel d ∨ Date.dateFromString junk n = .success d) := by
      obtain ⟨w, hw, h8 | ⟨y, m, d, hd⟩⟩ := h n List.mem_cons_self
      · exact ⟨_, ⟨w, hw, Or.inl ⟨h8, rfl⟩⟩, Or.inl (Date.c05_rejected_partial junk n w ht1.1 (token hw) h8)⟩
      · have hd' := hd
        obtain ⟨c1, c2, c3, c4, c5, c6, c7, c8, v1, v2, v3, v4, v5, v6, v7, v8, rfl, h1, h2, h3, h4, h5, h6, h7, h8,
          ey, em, ed, hy1, hy2, hv⟩ := hd
        obtain ⟨pre, post, e, hp, -, -, hpost⟩ := hw
        subst e
        obtain ⟨r, hr, ry, rm, rd, -⟩ := Date.c05_valid_dates_accepted junk pre post c1 c2 c3 c4 c5 c6 c7 c8
          v1 v2 v3 v4 v5 v6 v7 v8 (fun c hc => isSep_iff.2 (hp c hc)) (by
            rcases hpost with h | ⟨c, cs, h, hc⟩
            · exact Or.inl h
            · exact Or.inr ⟨c, cs, h, hc.imp isSep_iff.2 isCut_iff.2⟩) h1 h2 h3 h4 h5 h6 h7 h8 ht1.1 y m d ey em ed
          ⟨hy1, hy2⟩ hv
        obtain ⟨w', hw', -⟩ := h _ List.mem_cons_self
        refine ⟨r, ⟨[c1, c2, c3, c4, c5, c6, c7, c8], ⟨pre, post, rfl, hp, by simp, ?_, hpost⟩, Or.inr (by
          rw [ry, rm, rd]; exact hd')⟩, Or.inr hr⟩
        intro c hc
        have digit : ∀ (c : Char) (v : Nat), Date.IsDigitOf c v → c ∉ seps ∧ c ∉ ends := by
          intro c v hcv
          have hdig := hcv.1
          constructor
          · intro hm
            simp only [seps, List.mem_cons, List.not_mem_nil, or_false] at hm
            rcases hm with rfl | rfl | rfl | rfl | rfl | rfl <;> exact absurd hdig (by decide)
          · intro hm
            simp only [ends, List.mem_cons, List.not_mem_nil, or_false] at hm
            rcases hm with rfl | rfl | rfl <;> exact absurd hdig (by decide)
        simp only [List.mem_cons, List.not_mem_nil, or_false] at hc
        rcases hc with rfl | rfl | rfl | rfl | rfl | rfl | rfl | rfl
        exacts [digit _ _ h1, digit _ _ h2, digit _ _ h3, digit _ _ h4, digit _ _ h5, digit _ _ h6, digit _ _ h7,
          digit _ _ h8]
    obtain ⟨d, hd, hs⟩ := this
    obtain ⟨dates, hf, ho⟩ := ih d (fun x hx => ht x (List.mem_cons_of_mem _ hx))
      (fun x hx => h x (List.mem_cons_of_mem _ hx))
    refine ⟨d :: dates, List.Forall₂.cons hd hf, ?_⟩
    rw [outBands_cons n names junk d ht1 hs, ho]
    rfl

/-- C298, violated: a name whose first word has eight characters that do not start with a year, such as
`seasonal_mean`, gets the date of the band before it, and if it is the first band, whatever was in memory. -/
theorem c298_stale_violated (name : List Char) (c : Char) (w : List Char) (junk : Date.DateT)
    (rest : List (List Char)) (ht : Text name) (hw : FirstWord name (c :: w)) (h8 : w.length = 7)
    (hc : c.isAlpha = true) :
    ∀ r, outBands (name :: rest) junk = .ok r → r.head? = some (name, junk) := by
  intro r hr
  have : Date.dateFromString junk name = .cancel junk := by
    unfold Date.dateFromString
    rw [if_neg (by have := ht.1; omega), token hw]
    dsimp only
    have hz : Date.atoi ((c :: w).take 4) = 0 := by
      have : c.isDigit = false ∧ Date.isSpace c = false ∧ c ≠ '-' ∧ c ≠ '+' := alpha_facts hc
      rw [List.take_succ_cons]
      unfold Date.atoi
      rw [List.dropWhile_cons, if_neg (by rw [this.2.1]; decide)]
      split
      · rename_i e; exact absurd (List.cons.inj e).1 this.2.2.1
      · rename_i e; exact absurd (List.cons.inj e).1 this.2.2.2
      · rw [Date.digitsVal, if_neg (by rw [this.1]; decide)]
    rw [if_neg (by rw [List.length_cons]; omega), if_neg]
    unfold Date.rangeOk
    have hy : (Date.setDate Date.initDate (Date.atoi ((c :: w).take 4)) (Date.atoi (((c :: w).drop 4).take 2))
        (Date.atoi (((c :: w).drop 6).take 2))).year = 0 := by
      rw [hz]; rfl
    rw [hy]
    simp
  rw [outBands_cons name rest junk junk ht (Or.inl this)] at hr
  cases h : outBands rest junk with
  | ok l => rw [h] at hr; cases hr; rfl
  | exit => rw [h] at hr; cases hr
  | ub => rw [h] at hr; cases hr

example : outBands ["20180501_ndvi".toList, "seasonal_mean".toList] Date.initDate =
    .ok [("20180501_ndvi".toList, Date.setDate Date.initDate 2018 5 1),
      ("seasonal_mean".toList, Date.setDate Date.initDate 2018 5 1)] := by decide +kernel

example : FirstWord "seasonal_mean".toList "seasonal".toList :=
  ⟨[], "_mean".toList, by decide, by decide, by decide, by decide, Or.inr ⟨'_', "mean".toList, by decide, by decide⟩⟩

/-- C298, violated: a name that is empty or consists of separators makes the program read a null pointer. -/
theorem c298_empty_violated (name : List Char) (rest : List (List Char)) (junk : Date.DateT) (ht : Text name)
    (hs : ∀ c ∈ name, c ∈ seps) : outBands (name :: rest) junk = .ub := by
  rw [outBands, copyText_ok _ _ ht.2 ht.1]
  simp only [Out.bind]
  rw [Date.c05_no_word_ub_violated junk name (by
    intro c hc
    exact isSep_iff.2 (hs c hc)) ht.1]

/-- C298: R has to return at least one name; otherwise the program ends, and in every other case the bands are made
from the names. -/
theorem c298_r_partial (names : List (List Char)) (junk : Date.DateT) :
    rInit [] junk = .exit ∧ ((∀ n ∈ names, Text n) → names ≠ [] →
      (∀ n ∈ names, ∃ w, FirstWord n w ∧ (w.length ≠ 8 ∨ ∃ y m d, DateWord w y m d)) →
      ∃ dates, List.Forall₂ Dated names dates ∧ rInit names junk = .ok (names.zip dates)) := by
  refine ⟨rfl, fun ht h0 h => ?_⟩
  have hl : ¬ names.length < 1 := by
    have := List.length_pos_iff.2 h0
    omega
  unfold rInit
  rw [if_neg hl]
  exact c298_bands_partial names junk ht h

/-- C298, violated: in Python, the text of every name is read only after the object that holds it has been
released. -/
theorem c298_released_violated (n i b : Nat) (h : (pyEvents n)[i]? = some (.read b)) :
    ∃ j, j < i ∧ (pyEvents n)[j]? = some (.release b) ∧ ∀ k, j < k → (pyEvents n)[k]? ≠ some (.encode b) := by
  have get := Udf.flat_get (fun b => [Event.encode b, .release b, .read b, .read b]) 4 (fun _ => rfl) n
  have len := Udf.flat_length (fun b => [Event.encode b, .release b, .read b, .read b]) 4 (fun _ => rfl) n
  have at' : ∀ k e, (pyEvents n)[k]? = some e →
      k / 4 < n ∧ [Event.encode (k / 4), .release (k / 4), .read (k / 4), .read (k / 4)][k % 4]? = some e := by
    intro k e hk
    have hlt : k < n * 4 := by
      by_contra hc
      rw [List.getElem?_eq_none (by unfold pyEvents; omega)] at hk
      cases hk
    have hq : k / 4 < n := by omega
    refine ⟨hq, ?_⟩
    rw [← get (k / 4) (k % 4) hq (Nat.mod_lt _ (by decide)), show k / 4 * 4 + k % 4 = k by omega]
    exact hk
  obtain ⟨hq, he⟩ := at' i _ h
  have r4 : i % 4 = 0 ∨ i % 4 = 1 ∨ i % 4 = 2 ∨ i % 4 = 3 := by omega
  have hb : i / 4 = b ∧ 2 ≤ i % 4 := by
    rcases r4 with e | e | e | e
    · rw [e] at he; cases he
    · rw [e] at he; cases he
    · rw [e] at he ⊢; cases he; exact ⟨rfl, by decide⟩
    · rw [e] at he ⊢; cases he; exact ⟨rfl, by decide⟩
  refine ⟨b * 4 + 1, by omega, ?_, ?_⟩
  · have := get b 1 (by omega) (by decide)
    exact this
  · intro k hk hc
    obtain ⟨hq', he'⟩ := at' k _ hc
    have : k % 4 = 0 ∧ k / 4 = b := by
      have r4 : k % 4 = 0 ∨ k % 4 = 1 ∨ k % 4 = 2 ∨ k % 4 = 3 := by omega
      rcases r4 with e | e | e | e
      · rw [e] at he'; cases he'; exact ⟨e, rfl⟩
      · rw [e] at he'; cases he'
      · rw [e] at he'; cases he'
      · rw [e] at he'; cases he'
    omega

example : (pyEvents 2)[3]? = some (.read 0) := by decide

end Verif.Label
