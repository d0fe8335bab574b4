import Verif.Param.Lemmas

/-!
# Theorems about parameter files: C34, C35
-/

namespace Verif.Param

open Verif.Str (Out)
open Spec

/-! ## C34 -/

/-- The text of a file with these lines. -/
def fileText (lines : List (List Char)) : List Char := lines.flatMap fun l => l ++ ['\n']

theorem file_lines (lines : List (List Char)) (h : ∀ l ∈ lines, '\n' ∉ l ∧ l.length + 1 < 65536) :
    Libc.fgetsAll 65536 (fileText lines) = lines.map (· ++ ['\n']) :=
  Libc.fgetsAll_lines 65536 lines h

theorem file_state (ps0 ps : List Par) (hr : Registry ps0) (lines : List (List Char))
    (hl : ∀ l ∈ lines, '\n' ∉ l ∧ l.length + 1 < 65536)
    (h : parseFile ps0 (fileText lines) = .ok ps) : State ps0 lines ps := by
  unfold parseFile at h
  rw [file_lines lines hl] at h
  have := lines_state ps0 hr _ (by
    intro l hl'
    obtain ⟨l', h1, rfl⟩ := List.mem_map.1 hl'
    have := (hl l' h1).2
    simpa using this) [] ps0 ps (state_init ps0) h
  rw [List.nil_append] at this
  refine ⟨this.1, fun i p0 h0 => ?_⟩
  have h2 := this.2 i p0 h0
  rwa [given_newline] at h2

/-- C34: after reading a parameter file, each parameter has the values of the first line with its
tag that carries a value; if several (vector) parameters have the same name, the k-th one has the
values of the k-th such line. It is unset if there is no such line. -/
theorem c34_parse (ps0 ps : List Par) (hr : Registry ps0) (lines : List (List Char))
    (hl : ∀ l ∈ lines, '\n' ∉ l ∧ l.length + 1 < 65536)
    (h : parseFile ps0 (fileText lines) = .ok ps) :
    ps.length = ps0.length ∧ ∀ (i : Nat) p0, ps0[i]? = some p0 → ∃ p, ps[i]? = some p ∧
      p.name = p0.name ∧ p.kind = p0.kind ∧ p.vector = p0.vector ∧ p.expected = p0.expected ∧
      match (given p0.name lines)[rank ps0 i p0.name]? with
      | none => p.set = false ∧ p.values = []
      | some texts => p.set = true ∧ ReadAs p.kind p.vector texts p.values := by
  obtain ⟨h1, h2⟩ := file_state ps0 ps hr lines hl h
  refine ⟨h1, fun i p0 h0 => ?_⟩
  obtain ⟨p, e, hf⟩ := h2 i p0 h0
  have ff := filled_fields hf
  refine ⟨p, e, ff.1, ff.2.1, ff.2.2.1, ff.2.2.2, ?_⟩
  cases hg : (given p0.name lines)[rank ps0 i p0.name]? with
  | none =>
    rw [hg] at hf
    simp only [Filled] at hf
    subst hf
    exact hr.1 p (List.mem_of_getElem? h0)
  | some ts =>
    rw [hg] at hf
    simp only
    rw [ff.2.1, ff.2.2.1]
    exact fillPar_ok (given_ne_nil (List.mem_of_getElem? hg)) hf

/-- C34: reading succeeds whenever the texts of the lines used can be read: dates have at least
eight, texts less than 1024 characters. -/
theorem c34_readable (ps0 : List Par) (hr : Registry ps0) (lines : List (List Char))
    (hl : ∀ l ∈ lines, '\n' ∉ l ∧ l.length + 1 < 65536)
    (hread : ∀ (i : Nat) p0 ts, ps0[i]? = some p0 →
      (given p0.name lines)[rank ps0 i p0.name]? = some ts → ∀ t ∈ ts, Readable p0.kind t) :
    ∃ ps, parseFile ps0 (fileText lines) = .ok ps := by
  unfold parseFile
  rw [file_lines lines hl]
  apply lines_ok ps0 hr _ _ [] ps0 (state_init ps0)
  · intro i p0 ts h0 hg
    rw [List.nil_append, given_newline] at hg
    exact hread i p0 ts h0 hg
  · intro l hl'
    obtain ⟨l', h1, rfl⟩ := List.mem_map.1 hl'
    have := (hl l' h1).2
    simpa using this

/-- C34: unknown tags, comments and the order of different parameters do not matter: two files that
give the same values to each registered name have the same result. -/
theorem c34_irrelevant (ps0 ps ps' : List Par) (hr : Registry ps0) (lines lines' : List (List Char))
    (hl : ∀ l ∈ lines, '\n' ∉ l ∧ l.length + 1 < 65536)
    (hl' : ∀ l ∈ lines', '\n' ∉ l ∧ l.length + 1 < 65536)
    (hg : ∀ p ∈ ps0, given p.name lines = given p.name lines')
    (h : parseFile ps0 (fileText lines) = .ok ps)
    (h' : parseFile ps0 (fileText lines') = .ok ps') : ps = ps' := by
  obtain ⟨h1, h2⟩ := file_state ps0 ps hr lines hl h
  obtain ⟨h1', h2'⟩ := file_state ps0 ps' hr lines' hl' h'
  apply List.ext_getElem?
  intro i
  cases h0 : ps0[i]? with
  | none =>
    have hle := List.getElem?_eq_none_iff.1 h0
    rw [List.getElem?_eq_none (by omega), List.getElem?_eq_none (by omega)]
  | some p0 =>
    obtain ⟨p, e, hf⟩ := h2 i p0 h0
    obtain ⟨p', e', hf'⟩ := h2' i p0 h0
    rw [e, e']
    rw [← hg p0 (List.mem_of_getElem? h0)] at hf'
    cases hx : (given p0.name lines)[rank ps0 i p0.name]? with
    | none => rw [hx] at hf hf'; simp only [Filled] at hf hf'; rw [hf, hf']
    | some ts =>
      rw [hx] at hf hf'
      simp only [Filled] at hf hf'
      rw [hf] at hf'
      simp only [Out.ok.injEq] at hf'
      rw [hf']

/-- An example: two features, a scalar, a comment, an unknown tag. -/
def exReg : List Par :=
  [⟨"INPUT_FEATURE".toList, .char .none, true, -1, false, []⟩,
   ⟨"INPUT_FEATURE".toList, .char .none, true, -1, false, []⟩,
   ⟨"NODATA".toList, .int (-32768) 32767, false, 0, false, []⟩]

def exLines : List (List Char) :=
  ["# comment".toList, "INPUT_FEATURE = A.tif 1 2 # first".toList, "NODATA = -9999 7".toList,
   "OTHER = 3".toList, "INPUT_FEATURE=B.tif 3".toList, "NODATA = 5".toList]

example : Registry exReg ∧ given "INPUT_FEATURE".toList exLines =
      [["A.tif".toList, "1".toList, "2".toList], ["B.tif".toList, "3".toList]] ∧
    given "NODATA".toList exLines = [["-9999".toList, "7".toList], ["5".toList]] ∧
    rank exReg 1 "INPUT_FEATURE".toList = 1 ∧
    Libc.atoi "-9999".toList = -9999 := by
  refine ⟨⟨by simp [exReg], ?_⟩, by decide +kernel, by decide +kernel, by decide, by decide⟩
  intro i j p q hi hj hij hn
  match i, j with
  | 0, 0 => omega
  | 0, 1 => simp [exReg] at hi; subst hi; rfl
  | 0, 2 => simp [exReg] at hi hj; subst hi; subst hj; simp at hn
  | 1, 0 => simp [exReg] at hi; subst hi; rfl
  | 1, 1 => omega
  | 1, 2 => simp [exReg] at hi hj; subst hi; subst hj; simp at hn
  | 2, 0 => simp [exReg] at hi hj; subst hi; subst hj; simp at hn
  | 2, 1 => simp [exReg] at hi hj; subst hi; subst hj; simp at hn
  | 2, 2 => omega
  | i + 3, _ => simp [exReg] at hi
  | _, j + 3 => simp [exReg] at hj

/-- C34: whole numbers, enumeration tags and dates are read as what they say. -/
theorem c34_values (lo hi : ℤ) (ds : List Char) (hds : ∀ c ∈ ds, c.isDigit = true) (hne : ds ≠ [])
    (tags : List (List Char × ℤ)) (tag : List Char) (code : ℤ) (htag : (tag, code) ∈ tags)
    (huniq : ∀ c, (tag, c) ∈ tags → c = code)
    (dlo dhi : Date.DateT) (y m d : Nat) (hy : y < 10000) (hm : m < 100) (hd : d < 100) (c1 c2 : Char) :
    parseVal (.int lo hi) ds = .ok (.int (Libc.natVal ds)) ∧
    parseVal (.int lo hi) ('-' :: ds) = .ok (.int (-(Libc.natVal ds : ℤ))) ∧
    parseVal (.enum tags) tag = .ok (.int code) ∧
    parseVal (.date dlo dhi) (Libc.padDigits 4 y ++ c1 :: (Libc.padDigits 2 m ++ c2 :: Libc.padDigits 2 d)) =
      .ok (.date (Date.setDate Date.initDate y m d)) := by
  refine ⟨?_, ?_, ?_, ?_⟩
  · have := Libc.atoi_digits ds hds hne [] (by simp)
    rw [List.append_nil] at this
    simp [parseVal, this]
  · have := Libc.atoi_neg_digits ds hds [] (by simp)
    rw [List.append_nil] at this
    simp [parseVal, this]
  · simp only [parseVal, Out.ok.injEq, Val.int.injEq]
    induction tags with
    | nil => simp at htag
    | cons e tags ih =>
      rw [parseEnum]
      split
      · rename_i he
        exact huniq e.2 (by rw [he]; simp)
      · rename_i he
        rcases List.mem_cons.1 htag with h | h
        · exact absurd (by rw [← h]) he
        · exact ih h fun c hc => huniq c (by simp [hc])
  · have val : ∀ k n, n < 10 ^ (k + 1) → Libc.atoi (Libc.padDigits (k + 1) n) = n := by
      intro k n hn
      have := Libc.atoi_digits (Libc.padDigits (k + 1) n) (Libc.padDigits_isDigit _ _) (by
        intro h0
        have := congrArg List.length h0
        rw [Libc.padDigits_length] at this
        simp at this) [] (by simp)
      rw [List.append_nil, Libc.natVal_padDigits, Nat.mod_eq_of_lt hn] at this
      exact this
    have l4 := Libc.padDigits_length 4 y
    have l2 := Libc.padDigits_length 2 m
    have l2' := Libc.padDigits_length 2 d
    simp only [parseVal, parseDate]
    rw [if_neg (by simp [l4, l2, l2'])]
    have e1 : (Libc.padDigits 4 y ++ c1 :: (Libc.padDigits 2 m ++ c2 :: Libc.padDigits 2 d)).take 4 =
        Libc.padDigits 4 y := List.take_left' l4
    have e2 : ((Libc.padDigits 4 y ++ c1 :: (Libc.padDigits 2 m ++ c2 :: Libc.padDigits 2 d)).drop 5).take 2 =
        Libc.padDigits 2 m := by
      rw [show Libc.padDigits 4 y ++ c1 :: (Libc.padDigits 2 m ++ c2 :: Libc.padDigits 2 d) =
        (Libc.padDigits 4 y ++ [c1]) ++ (Libc.padDigits 2 m ++ c2 :: Libc.padDigits 2 d) by simp,
        List.drop_left' (by simp [l4]), List.take_left' l2]
    have e3 : ((Libc.padDigits 4 y ++ c1 :: (Libc.padDigits 2 m ++ c2 :: Libc.padDigits 2 d)).drop 8).take 2 =
        Libc.padDigits 2 d := by
      rw [show Libc.padDigits 4 y ++ c1 :: (Libc.padDigits 2 m ++ c2 :: Libc.padDigits 2 d) =
        (Libc.padDigits 4 y ++ c1 :: (Libc.padDigits 2 m ++ [c2])) ++ Libc.padDigits 2 d by simp,
        List.drop_left' (by simp [l4, l2]), List.take_of_length_le (by omega)]
    rw [e1, e2, e3, val 3 y hy, val 1 m hm, val 1 d hd]
    rfl

example : parseVal (.date Date.initDate Date.initDate) "2020-03-01".toList =
    .ok (.date (Date.setDate Date.initDate 2020 3 1)) := by decide

/-- C34: pre-screening counts the lines whose first word is the tag, and fails if there is none. -/
theorem c34_prescreen (lines : List (List Char)) (tag : List Char)
    (hl : ∀ l ∈ lines, '\n' ∉ l ∧ l.length + 1 < 1024) (n : Nat)
    (hn : n = lines.countP fun l => (words (content l)).head? = some tag) :
    prescreen (fileText lines) tag = if n = 0 then none else some n := by
  have key : ∀ ls : List (List Char), prescreenCount tag (ls.map (· ++ ['\n'])) =
      ls.countP fun l => (words (content l)).head? = some tag := by
    intro ls
    induction ls with
    | nil => rfl
    | cons l ls ih =>
      rw [List.map_cons, prescreenCount, cut_content, content_newline, List.countP_cons]
      have hw := tokens_words (content l)
      cases e : Libc.strtok isSep (content l) with
      | none =>
        rw [tokens_none e] at hw
        simp only [← hw, ih]
        simp
      | some p =>
        obtain ⟨t, r⟩ := p
        rw [tokens_some e] at hw
        simp only [← hw, ih]
        by_cases h : t = tag <;> simp [h]
  unfold prescreen
  rw [show Libc.fgetsAll 1024 (fileText lines) = lines.map (· ++ ['\n']) from
    Libc.fgetsAll_lines 1024 lines hl, key, ← hn]

/-! ## C35 -/

theorem enumOk_iff (v : ℤ) (tags : List (List Char × ℤ)) (ok : Bool) :
    enumOk v tags ok = true ↔ ok = true ∨ ∃ t, (t, v) ∈ tags := by
  induction tags generalizing ok with
  | nil => simp [enumOk]
  | cons e es ih =>
    rw [enumOk, ih]
    by_cases h : v = e.2
    · rw [if_pos h]
      simp only [true_or, true_iff]
      exact Or.inr ⟨e.1, by rw [h]; simp⟩
    · rw [if_neg h]
      constructor
      · rintro (h1 | ⟨t, h1⟩)
        exacts [Or.inl h1, Or.inr ⟨t, by simp [h1]⟩]
      · rintro (h1 | ⟨t, h1⟩)
        · exact Or.inl h1
        · rcases List.mem_cons.1 h1 with h2 | h2
          · exact absurd (by rw [← h2]) h
          · exact Or.inr ⟨t, h2⟩

theorem valError_iff (fileexist : List Char → Bool) (k : Kind) (v : Val) (hk : NumRange k)
    (hv : v ≠ .float .nan) : valError fileexist k v = false ↔ Admissible fileexist k v := by
  cases k with
  | int lo hi =>
    cases v <;> simp [valError, Admissible, intError]
  | enum tags =>
    cases v with
    | int v =>
      simp only [valError, Admissible, Bool.not_eq_false']
      rw [enumOk_iff]; simp
    | _ => simp [valError, Admissible]
  | float rd lo hi =>
    cases lo <;> cases hi <;> simp only [NumRange] at hk
    rename_i lo hi
    cases v with
    | float v =>
      cases v with
      | nan => exact absurd rfl hv
      | num q => simp [valError, Admissible, floatError, FVal.lt]
      | _ => simp [valError, Admissible, floatError, FVal.lt]
    | _ => simp [valError, Admissible]
  | date lo hi =>
    cases v <;> simp [valError, Admissible, dateError]
  | char test =>
    cases v with
    | text s =>
      cases test with
      | nullOrExist =>
        simp only [valError, charError, Admissible]
        generalize "NULL".toList = n
        by_cases h : s = n <;> simp [h]
      | nullOrBase =>
        simp only [valError, charError, Admissible]
        generalize "NULL".toList = n
        by_cases h : s = n
        · simp [h]
        · by_cases h2 : '/' ∈ s <;> simp [h, h2]
      | base =>
        simp only [valError, charError, Admissible]
        by_cases h2 : '/' ∈ s <;> simp [h2]
      | _ => simp [valError, charError, Admissible]
    | _ => cases test <;> simp [valError, Admissible]

theorem countErrors_zero (fileexist : List Char → Bool) (k : Kind) (vs : List Val) :
    countErrors fileexist k vs = 0 ↔ ∀ v ∈ vs, valError fileexist k v = false := by
  induction vs with
  | nil => simp [countErrors]
  | cons v vs ih =>
    rw [countErrors, Nat.add_eq_zero_iff, ih]
    cases h : valError fileexist k v <;> simp [h]

theorem totalErrors_zero (fileexist : List Char → Bool) (ps : List Par) :
    totalErrors fileexist ps = 0 ↔ ∀ p ∈ ps, parError fileexist p = 0 := by
  induction ps with
  | nil => simp [totalErrors]
  | cons p ps ih =>
    rw [totalErrors, Nat.add_eq_zero_iff, ih]
    simp

theorem parError_zero (fileexist : List Char → Bool) (p : Par) (hk : NumRange p.kind)
    (hv : Val.float .nan ∉ p.values) : parError fileexist p = 0 ↔ Complete fileexist p := by
  unfold parError Complete
  have hce := countErrors_zero fileexist p.kind p.values
  have hva : (∀ v ∈ p.values, valError fileexist p.kind v = false) ↔
      ∀ v ∈ p.values, Admissible fileexist p.kind v := by
    constructor <;> intro h v hvm
    · exact (valError_iff fileexist p.kind v hk (by rintro rfl; exact hv hvm)).1 (h v hvm)
    · exact (valError_iff fileexist p.kind v hk (by rintro rfl; exact hv hvm)).2 (h v hvm)
  rw [hva] at hce
  cases hset : p.set with
  | false => simp
  | true =>
    rw [if_neg (by simp)]
    cases hvec : p.vector with
    | false =>
      simp only [Bool.false_and, Bool.false_eq_true, if_false, false_implies, true_and]
      rw [← hce]
      split <;> simp <;> omega
    | true =>
      simp only [Bool.true_and, true_implies, true_and]
      by_cases h1 : p.values = []
      · simp [h1]
      · rw [if_neg (by simp [h1])]
        by_cases h2 : p.expected > 0 ∧ (p.values.length : ℤ) ≠ p.expected
        · rw [if_pos (by simp [h2])]
          simp only [Nat.one_ne_zero, false_iff, not_and]
          intro h3
          exact absurd (h3.2 h2.1) h2.2
        · rw [if_neg (by simpa using h2), ← hce]
          have : p.values ≠ [] ∧ (0 < p.expected → (p.values.length : ℤ) = p.expected) :=
            ⟨h1, fun h => by by_contra hc; exact h2 ⟨h, hc⟩⟩
          constructor
          · intro h; exact ⟨this, by by_contra hc; rw [if_pos (by omega)] at h; omega⟩
          · intro h; rw [if_neg (by omega)]

/-- C35 (partial): the parameter check succeeds exactly if each parameter has been set, has values,
has the expected number of values, and each value is admissible. Missing: NaN, see
`c35_nan_violated`. -/
theorem c35_check_partial (fileexist : List Char → Bool) (ps : List Par)
    (hk : ∀ p ∈ ps, NumRange p.kind) (hv : ∀ p ∈ ps, Val.float .nan ∉ p.values) :
    checkParameter fileexist ps = true ↔ ∀ p ∈ ps, Complete fileexist p := by
  unfold checkParameter
  simp only [Bool.not_eq_true', decide_eq_false_iff_not, Nat.not_lt, Nat.le_zero]
  rw [totalErrors_zero]
  constructor <;> intro h p hp
  · exact (parError_zero fileexist p (hk p hp) (hv p hp)).1 (h p hp)
  · exact (parError_zero fileexist p (hk p hp) (hv p hp)).2 (h p hp)

example : checkParameter (fun _ => true)
    [⟨"RESOLUTION".toList, .float id (.num 0) (.num 100), false, 0, true, [.float (.num 30)]⟩,
     ⟨"DOY_RANGE".toList, .int 1 365, true, 2, true, [.int 1, .int 365]⟩] = true := by decide +kernel

/-- C35 does not hold for NaN: a floating point parameter given as "nan" (any letter case, with or
without sign) is read as NaN, and the check accepts it, whatever its range. -/
theorem c35_nan_violated (fileexist : List Char → Bool) (name : List Char) (rd : ℚ → ℚ) (lo hi : FVal)
    (rest : List Char) :
    parseVal (.float rd lo hi) ('n' :: 'a' :: 'n' :: rest) = .ok (.float .nan) ∧
    checkParameter fileexist [⟨name, .float rd lo hi, false, 0, true, [.float .nan]⟩] = true ∧
    ¬ Complete fileexist ⟨name, .float rd lo hi, false, 0, true, [.float .nan]⟩ := by
  refine ⟨?_, ?_, ?_⟩
  · unfold parseVal atofX
    rw [List.dropWhile_cons_of_neg (by decide)]
    simp only [Out.ok.injEq, Val.float.injEq]
    rw [if_pos]
    show List.map Char.toLower (List.take 3 ('n' :: 'a' :: 'n' :: rest)) = _
    rw [List.take_succ_cons, List.take_succ_cons, List.take_succ_cons, List.take_zero]
    decide
  · have h1 : ∀ x, FVal.lt .nan x = false := by intro x; cases x <;> rfl
    have h2 : ∀ x, FVal.lt x .nan = false := by intro x; cases x <;> rfl
    simp [checkParameter, totalErrors, parError, countErrors, valError, floatError, h1, h2]
  · intro h
    have := h.2.2 (.float .nan) (by simp)
    cases lo <;> cases hi <;> simp [Admissible] at this

/-- C35: an enumeration parameter that was read from a text and passes the check had one of the tags
of the enumeration as its text. -/
theorem c35_enum (fileexist : List Char → Bool) (tags : List (List Char × ℤ)) (text : List Char) (v : ℤ)
    (hmax : ∀ e ∈ tags, e.2 ≠ 2147483647) (h : parseVal (.enum tags) text = .ok (.int v))
    (hc : Admissible fileexist (.enum tags) (.int v)) : (text, v) ∈ tags := by
  simp only [parseVal, Out.ok.injEq, Val.int.injEq] at h
  obtain ⟨t, ht⟩ := hc
  have hv : v ≠ 2147483647 := hmax _ ht
  have main : ∀ l : List (List Char × ℤ), parseEnum text l = v → (text, v) ∈ l := by
    intro l
    induction l with
    | nil => intro h; exact absurd h.symm hv
    | cons e es ih =>
      intro h
      rw [parseEnum] at h
      split at h
      · rename_i he; rw [← h, he]; simp
      · exact List.mem_cons_of_mem _ (ih h)
  exact main tags h

end Verif.Param
