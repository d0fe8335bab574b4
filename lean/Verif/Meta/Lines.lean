import Mathlib.Data.List.Infix
import Mathlib.Data.List.TakeWhile
import Verif.Libc.Lemmas
import Verif.Meta.Model
import Verif.Meta.Spec

/-!
# From the text of the file to its lines
-/

namespace Verif.Meta

open Verif.Libc Verif.Str Verif.Meta.Spec

/-! ## Words without a meaning -/

theorem plain_mono {x y : List Char} (h : Plain y) (hxy : x <:+: y) : Plain x :=
  fun k hk hkx => h k hk (hkx.trans hxy)

theorem keywords_no_newline : ∀ k ∈ keywords, '\n' ∉ k.toList := by decide +kernel

theorem infix_newline {k x : List Char} (hk : '\n' ∉ k) (h : k <:+: x ++ ['\n']) : k <:+: x := by
  obtain ⟨a, b, e⟩ := h
  rcases List.eq_nil_or_concat b with rfl | ⟨b', c, rfl⟩
  · rcases List.eq_nil_or_concat k with rfl | ⟨k', c, rfl⟩
    · exact List.nil_infix
    · rw [List.append_nil, List.concat_eq_append, ← List.append_assoc] at e
      have := (List.append_inj' e rfl).2
      simp only [List.cons.injEq, and_true] at this
      subst this
      simp at hk
  · rw [List.concat_eq_append, ← List.append_assoc] at e
    have := (List.append_inj' e rfl).1
    exact ⟨a, b', this⟩

theorem plain_newline {x : List Char} (h : Plain x) : Plain (x ++ ['\n']) :=
  fun k hk hki => h k hk (infix_newline (keywords_no_newline k hk) hki)

theorem plain_nl : Plain ['\n'] := by
  have : Plain [] := by
    intro k hk hki
    rw [List.infix_nil] at hki
    revert k
    decide +kernel
  simpa using plain_newline this

theorem kind_plain {t : List Char} (h : Plain t) : kind t = .other := by
  have E : ∀ k : String, k ∈ keywords → ¬ t = ch k := by
    intro k hk he
    exact h k hk (he ▸ List.infix_rfl)
  have I : ∀ k : String, k ∈ keywords → ¬ ch k <:+: t := h
  have m : ∀ {k : String}, keywords.contains k = true → k ∈ keywords := by
    intro k hk; simpa using hk
  unfold kind
  rw [if_neg (E "SPACECRAFT_ID" (m (by decide +kernel)))]
  rw [if_neg (I "FILE_NAME" (m (by decide +kernel)))]
  rw [if_neg (not_or.2 ⟨E "DATA_TYPE" (m (by decide +kernel)),
    E "PRODUCT_TYPE" (m (by decide +kernel))⟩)]
  rw [if_neg (E "COLLECTION_CATEGORY" (m (by decide +kernel)))]
  rw [if_neg (not_or.2 ⟨E "PRODUCT_SAMPLES_REF" (m (by decide +kernel)),
    E "REFLECTIVE_SAMPLES" (m (by decide +kernel))⟩)]
  rw [if_neg (not_or.2 ⟨E "PRODUCT_LINES_REF" (m (by decide +kernel)),
    E "REFLECTIVE_LINES" (m (by decide +kernel))⟩)]
  rw [if_neg (not_or.2 ⟨E "GRID_CELL_SIZE_REF" (m (by decide +kernel)),
    E "GRID_CELL_SIZE_REFLECTIVE" (m (by decide +kernel))⟩)]
  rw [if_neg (not_or.2 ⟨E "PRODUCT_UL_CORNER_MAPX" (m (by decide +kernel)),
    E "CORNER_UL_PROJECTION_X_PRODUCT" (m (by decide +kernel))⟩)]
  rw [if_neg (not_or.2 ⟨E "PRODUCT_UL_CORNER_MAPY" (m (by decide +kernel)),
    E "CORNER_UL_PROJECTION_Y_PRODUCT" (m (by decide +kernel))⟩)]
  rw [if_neg (E "WRS_PATH" (m (by decide +kernel)))]
  rw [if_neg (not_or.2 ⟨E "WRS_ROW" (m (by decide +kernel)),
    E "STARTING_ROW" (m (by decide +kernel))⟩)]
  rw [if_neg (not_or.2 ⟨E "ACQUISITION_DATE" (m (by decide +kernel)),
    E "DATE_ACQUIRED" (m (by decide +kernel))⟩)]
  rw [if_neg (not_or.2 ⟨E "SCENE_CENTER_TIME" (m (by decide +kernel)),
    E "SCENE_CENTER_SCAN_TIME" (m (by decide +kernel))⟩)]
  rw [if_neg (fun hq => (not_or.2 ⟨I "LMAX_" (m (by decide +kernel)),
    I "RADIANCE_MAXIMUM_" (m (by decide +kernel))⟩) hq.2)]
  rw [if_neg (fun hq => (not_or.2 ⟨I "LMIN_" (m (by decide +kernel)),
    I "RADIANCE_MINIMUM_" (m (by decide +kernel))⟩) hq.2)]
  rw [if_neg (not_or.2 ⟨I "QCALMAX_" (m (by decide +kernel)),
    I "QUANTIZE_CAL_MAX_" (m (by decide +kernel))⟩)]
  rw [if_neg (not_or.2 ⟨I "QCALMIN_" (m (by decide +kernel)),
    I "QUANTIZE_CAL_MIN_" (m (by decide +kernel))⟩)]
  rw [if_neg (I "REFLECTANCE_MULT_" (m (by decide +kernel)))]
  rw [if_neg (I "REFLECTANCE_ADD_" (m (by decide +kernel)))]
  rw [if_neg (I "K1_CONSTANT_" (m (by decide +kernel)))]
  rw [if_neg (I "K2_CONSTANT_" (m (by decide +kernel)))]

/-! ## Tokens -/

theorem strtok_infix {sp : Char → Bool} {s t r : List Char} (h : strtok sp s = some (t, r)) :
    t <:+: s ∧ r <:+: s := by
  unfold strtok at h
  have hs : s.dropWhile sp <:+ s := List.dropWhile_suffix _
  revert h hs
  cases s.dropWhile sp with
  | nil => intro h; simp at h
  | cons c cs =>
    intro h hs
    simp only [Option.some.injEq, Prod.mk.injEq] at h
    obtain ⟨rfl, rfl⟩ := h
    refine ⟨(List.takeWhile_prefix _).isInfix.trans hs.isInfix, ?_⟩
    exact ((List.drop_suffix _ _).trans ((List.dropWhile_suffix _).trans hs)).isInfix

theorem tokenLoop_plain (num : List Char → ℚ) (d : List Char) (n : Nat) (st : St)
    (tag rest : List Char) (ht : Plain tag) (hr : Plain rest) :
    tokenLoop num d n st tag rest = .ok st := by
  induction n generalizing tag rest with
  | zero => rfl
  | succ n ih =>
    unfold tokenLoop
    cases h : strtok sep rest with
    | none => simp [handle, kind_plain ht, Out.bind]
    | some x =>
      obtain ⟨v, r⟩ := x
      obtain ⟨h1, h2⟩ := strtok_infix h
      simp only [handle, kind_plain ht, Out.bind]
      exact ih v r (plain_mono hr h1) (plain_mono hr h2)

theorem lineStep_other (num : List Char → ℚ) (d : List Char) (st : St) (x : List Char)
    (h : Plain x) : lineStep num d st (x ++ ['\n']) = .ok st := by
  have hp := plain_newline h
  unfold lineStep
  cases e : strtok sep (x ++ ['\n']) with
  | none => rfl
  | some y =>
    obtain ⟨v, r⟩ := y
    obtain ⟨h1, h2⟩ := strtok_infix e
    exact tokenLoop_plain _ _ _ _ _ _ (plain_mono hp h1) (plain_mono hp h2)

theorem word_sep {x : List Char} (h : Word x) : ∀ c ∈ x, sep c = false := by
  intro c hc
  obtain ⟨h1, h2, h3, h4, -⟩ := h.2 c hc
  simp [sep, h1, h2, h3, h4]

theorem strtok_nil : strtok sep [] = none := rfl

theorem strtok_nl : strtok sep ['\n'] = some (['\n'], []) := rfl

/-- What the reader sees as the value of an entry. -/
def seen (v : List Char) (quoted : Bool) : List Char := if quoted then v else v ++ ['\n']

/-- Effect of an entry on the state. -/
def entryEff (num : List Char → ℚ) (d : List Char) (st : St) (t s : List Char) : Out St :=
  (handle num d st t (some s) []).bind fun x => .ok x.1

theorem handle_keep (num : List Char → ℚ) (d : List Char) (st : St) (t s rest : List Char)
    (h1 : kind t ≠ .date) (h2 : kind t ≠ .time) :
    handle num d st t (some s) rest
      = (entryEff num d st t s).bind fun st' => .ok (st', some s, rest) := by
  unfold entryEff handle
  cases hk : kind t <;> simp only [need]
  case date => exact absurd hk h1
  case time => exact absurd hk h2
  case craft => cases setCraft st s <;> rfl
  case file => cases setBands num d t (some s) 0 st <;> rfl
  case coefs => cases setBands num d t (some s) _ st <;> rfl
  all_goals first
    | rfl
    | (unfold withImage; cases st.craft <;> rfl)

theorem peel {c : Prop} [Decidable c] {a b x : Kind} (h : (if c then a else b) = x) (ha : a ≠ x) :
    b = x := by
  by_cases hc : c
  · rw [if_pos hc] at h; exact absurd h ha
  · rwa [if_neg hc] at h

theorem peel_self {c : Prop} [Decidable c] {a b : Kind} (h : (if c then a else b) = a)
    (hb : b ≠ a) : c := by
  by_contra hc
  rw [if_neg hc] at h
  exact hb h

theorem kind_date {t : List Char} (h : kind t = .date) :
    t = ch "ACQUISITION_DATE" ∨ t = ch "DATE_ACQUIRED" := by
  unfold kind at h
  iterate 11 replace h := peel h (by decide)
  refine peel_self h ?_
  clear h
  intro h
  iterate 9 replace h := peel h (by decide)
  exact absurd h (by decide)

theorem kind_time {t : List Char} (h : kind t = .time) :
    t = ch "SCENE_CENTER_TIME" ∨ t = ch "SCENE_CENTER_SCAN_TIME" := by
  unfold kind at h
  iterate 12 replace h := peel h (by decide)
  refine peel_self h ?_
  clear h
  intro h
  iterate 8 replace h := peel h (by decide)
  exact absurd h (by decide)

theorem strtok_tag (n : Nat) (t rest : List Char) (ht : Word t) :
    strtok sep (List.replicate n ' ' ++ t ++ ch " = " ++ rest) = some (t, '=' :: ' ' :: rest) := by
  have := strtok_cons sep (List.replicate n ' ') t ('=' :: ' ' :: rest)
    (by intro c hc; rw [List.eq_of_mem_replicate hc]; rfl) (word_sep ht) ht.1 ' ' rfl
  rw [← this]
  congr 1
  simp [ch, List.append_assoc]

theorem strtok_quoted (v rest : List Char) (hv : Word v) :
    strtok sep ('=' :: ' ' :: '"' :: (v ++ '"' :: rest)) = some (v, rest) :=
  strtok_cons sep ['=', ' ', '"'] v rest (by decide) (word_sep hv) hv.1 '"' rfl

theorem strtok_bare (v : List Char) (hv : Word v) :
    strtok sep ('=' :: ' ' :: (v ++ ['\n'])) = some (v ++ ['\n'], []) := by
  refine strtok_end sep ['=', ' '] (v ++ ['\n']) (by decide) ?_ (by simp)
  intro c hc
  rcases List.mem_append.1 hc with h | h
  · exact word_sep hv c h
  · rw [List.mem_singleton.1 h]; rfl

theorem handle_plain (num : List Char → ℚ) (d : List Char) (st : St) (t : List Char)
    (v : Option (List Char)) (rest : List Char) (ht : Plain t) :
    handle num d st t v rest = .ok (st, v, rest) := by
  simp [handle, kind_plain ht, Out.bind]

theorem lineStep_entry (num : List Char → ℚ) (d : List Char) (st : St) (n : Nat)
    (t v : List Char) (q : Bool) (h : Good (.entry n t v q)) :
    lineStep num d st ((Line.entry n t v q).text ++ ['\n']) = entryEff num d st t (seen v q) := by
  obtain ⟨-, -, ht, hv, hp, hd1, hd2, ht1, ht2⟩ := h
  have hk1 : kind t ≠ .date := fun e => (kind_date e).elim hd1 hd2
  have hk2 : kind t ≠ .time := fun e => (kind_time e).elim ht1 ht2
  unfold lineStep Line.text
  cases q with
  | true =>
    simp only [if_true, seen]
    have e : (List.replicate n ' ' ++ t ++ " = ".toList ++ ('"' :: v ++ ['"'])) ++ ['\n']
        = List.replicate n ' ' ++ t ++ ch " = " ++ ('"' :: (v ++ '"' :: ['\n'])) := by
      simp [ch, List.append_assoc]
    rw [e, strtok_tag _ _ _ ht]
    have hl : ∃ k, (List.replicate n ' ' ++ t ++ ch " = " ++ ('"' :: (v ++ '"' :: ['\n']))).length + 1
        = k + 3 := ⟨(List.replicate n ' ' ++ t ++ ch " = " ++ ('"' :: (v ++ '"' :: ['\n']))).length - 2,
          by simp; omega⟩
    obtain ⟨k, hk⟩ := hl
    simp only [hk]
    rw [tokenLoop, strtok_quoted _ _ hv]
    simp only
    rw [handle_keep num d st t v ['\n'] hk1 hk2]
    cases entryEff num d st t v with
    | exit => rfl
    | ub => rfl
    | ok st' =>
      simp only [Out.bind]
      rw [tokenLoop, strtok_nl]
      simp only
      rw [handle_plain num d st' v _ _ hp]
      simp only [Out.bind]
      rw [tokenLoop, strtok_nil]
      simp only
      rw [handle_plain num d st' _ _ _ plain_nl]
      rfl
  | false =>
    simp only [Bool.false_eq_true, if_false, seen]
    have e : (List.replicate n ' ' ++ t ++ " = ".toList ++ v) ++ ['\n']
        = List.replicate n ' ' ++ t ++ ch " = " ++ (v ++ ['\n']) := by
      simp [ch, List.append_assoc]
    rw [e, strtok_tag _ _ _ ht]
    have hl : ∃ k, (List.replicate n ' ' ++ t ++ ch " = " ++ (v ++ ['\n'])).length + 1
        = k + 2 := ⟨(List.replicate n ' ' ++ t ++ ch " = " ++ (v ++ ['\n'])).length - 1,
          by simp; omega⟩
    obtain ⟨k, hk⟩ := hl
    simp only [hk]
    rw [tokenLoop, strtok_bare _ hv]
    simp only
    rw [handle_keep num d st t _ [] hk1 hk2]
    cases entryEff num d st t (v ++ ['\n']) with
    | exit => rfl
    | ub => rfl
    | ok st' =>
      simp only [Out.bind]
      rw [tokenLoop, strtok_nil]
      simp only
      rw [handle_plain num d st' _ _ _ (plain_newline hp)]
      rfl

/-! ## Dates and times -/

theorem plain_digits {x : List Char} (h : ∀ c ∈ x, c.isDigit = true) : Plain x := by
  intro k hk hi
  have : ∃ c ∈ k.toList, c.isDigit = false := by
    revert k
    have : ∀ k ∈ keywords, ∃ c ∈ k.toList, c.isDigit = false := by decide +kernel
    intro k hk _
    exact this k hk
  obtain ⟨c, hc, hcd⟩ := this
  rw [h c (hi.subset hc)] at hcd
  simp at hcd

theorem digit_sep {c : Char} (h : c.isDigit = true) : sep c = false ∧ sepDate c = false := by
  have hs : c ≠ ' ' := by rintro rfl; simp at h
  have he : c ≠ '=' := by rintro rfl; revert h; decide
  have hq : c ≠ '"' := by rintro rfl; revert h; decide
  have hc : c ≠ ':' := by rintro rfl; revert h; decide
  have hm : c ≠ '-' := by rintro rfl; revert h; decide
  simp [sep, sepDate, hs, he, hq, hc, hm]

theorem atoi_number (x rest : List Char) (h : ∀ c ∈ x, c.isDigit = true) (hne : x ≠ [])
    (hr : ∀ c, rest.head? = some c → c.isDigit = false) : atoi (x ++ rest) = natVal x :=
  atoi_digits x h hne rest hr

theorem kind_date_tag {t : List Char} (h : t = ch "ACQUISITION_DATE" ∨ t = ch "DATE_ACQUIRED") :
    kind t = .date ∧ Word t := by
  rcases h with rfl | rfl
  · exact ⟨by decide +kernel, by unfold Word; decide +kernel⟩
  · exact ⟨by decide +kernel, by unfold Word; decide +kernel⟩

theorem kind_time_tag {t : List Char}
    (h : t = ch "SCENE_CENTER_TIME" ∨ t = ch "SCENE_CENTER_SCAN_TIME") :
    kind t = .time ∧ Word t := by
  rcases h with rfl | rfl
  · exact ⟨by decide +kernel, by unfold Word; decide +kernel⟩
  · exact ⟨by decide +kernel, by unfold Word; decide +kernel⟩

theorem lineStep_date (num : List Char → ℚ) (dir : List Char) (st : St) (n : Nat)
    (t y m d : List Char) (h : Good (.date n t y m d)) :
    lineStep num dir st ((Line.date n t y m d).text ++ ['\n'])
      = .ok { st with ymd := some (natVal y, natVal m, natVal d) } := by
  obtain ⟨-, -, ht, hx⟩ := h
  obtain ⟨hk, hw⟩ := kind_date_tag ht
  simp only [List.mem_cons, List.not_mem_nil, or_false, forall_eq_or_imp, forall_eq] at hx
  obtain ⟨⟨yne, yd⟩, ⟨mne, md⟩, ⟨dne, dd⟩⟩ := hx
  unfold lineStep Line.text
  have e : (List.replicate n ' ' ++ t ++ " = ".toList ++ (y ++ '-' :: m ++ '-' :: d)) ++ ['\n']
      = List.replicate n ' ' ++ t ++ ch " = " ++ (y ++ '-' :: (m ++ '-' :: (d ++ ['\n']))) := by
    simp [ch, List.append_assoc]
  rw [e, strtok_tag _ _ _ hw]
  have hl : ∃ k, (List.replicate n ' ' ++ t ++ ch " = "
      ++ (y ++ '-' :: (m ++ '-' :: (d ++ ['\n'])))).length + 1 = k + 2 :=
    ⟨(List.replicate n ' ' ++ t ++ ch " = "
      ++ (y ++ '-' :: (m ++ '-' :: (d ++ ['\n'])))).length - 1, by simp; omega⟩
  obtain ⟨k, hk'⟩ := hl
  simp only [hk']
  have hv : strtok sep ('=' :: ' ' :: (y ++ '-' :: (m ++ '-' :: (d ++ ['\n']))))
      = some (y ++ '-' :: (m ++ '-' :: (d ++ ['\n'])), []) := by
    refine strtok_end sep ['=', ' '] (y ++ '-' :: (m ++ '-' :: (d ++ ['\n']))) (by decide) ?_ (by simp)
    intro c hc
    simp only [List.mem_append, List.mem_cons, List.not_mem_nil, or_false] at hc
    rcases hc with hc | rfl | hc | rfl | hc | rfl
    · exact (digit_sep (yd c hc)).1
    · rfl
    · exact (digit_sep (md c hc)).1
    · rfl
    · exact (digit_sep (dd c hc)).1
    · rfl
  have h1 : strtok sepDate (y ++ '-' :: (m ++ '-' :: (d ++ ['\n'])))
      = some (y, m ++ '-' :: (d ++ ['\n'])) := by
    have := strtok_cons sepDate [] y (m ++ '-' :: (d ++ ['\n'])) (by simp)
      (fun c hc => (digit_sep (yd c hc)).2) yne '-' rfl
    simpa using this
  have h2 : strtok sepDate (m ++ '-' :: (d ++ ['\n'])) = some (m, d ++ ['\n']) := by
    have := strtok_cons sepDate [] m (d ++ ['\n']) (by simp)
      (fun c hc => (digit_sep (md c hc)).2) mne '-' rfl
    simpa using this
  have h3 : strtok sepDate (d ++ ['\n']) = some (d ++ ['\n'], []) := by
    have := strtok_end sepDate [] (d ++ ['\n']) (by simp) ?_ (by simp)
    · simpa using this
    · intro c hc
      rcases List.mem_append.1 hc with hc | hc
      · exact (digit_sep (dd c hc)).2
      · rw [List.mem_singleton.1 hc]; rfl
  have h4 : (y ++ '-' :: (m ++ '-' :: (d ++ ['\n']))).takeWhile sepDate = [] := by
    obtain ⟨c, s, rfl⟩ := List.exists_cons_of_ne_nil yne
    simp [(digit_sep (yd c (by simp))).2]
  rw [tokenLoop, hv]
  simp only [handle, hk, need, h1, h2, h3, h4, List.nil_append, Out.bind]
  rw [tokenLoop, strtok_nil]
  simp only
  rw [handle_plain _ _ _ _ _ _ (plain_digits yd)]
  simp only [Out.bind]
  have a1 : atoi y = natVal y := by
    simpa using atoi_number y [] yd yne (by simp)
  have a2 : atoi m = natVal m := by
    simpa using atoi_number m [] md mne (by simp)
  have a3 : atoi (d ++ ['\n']) = natVal d :=
    atoi_number d ['\n'] dd dne (by intro c hc; simp at hc; rw [← hc]; rfl)
  rw [a1, a2, a3]

theorem lineStep_clock (num : List Char → ℚ) (dir : List Char) (st : St) (n : Nat)
    (t a b c : List Char) (h : Good (.clock n t a b c)) :
    lineStep num dir st ((Line.clock n t a b c).text ++ ['\n'])
      = .ok { st with hms := some (atoi a, atoi b, atoi c) } := by
  obtain ⟨-, -, ht, ha, hb, hc, hp⟩ := h
  obtain ⟨hk, hw⟩ := kind_time_tag ht
  unfold lineStep Line.text
  have e : (List.replicate n ' ' ++ t ++ " = ".toList ++ ('"' :: a ++ ':' :: b ++ ':' :: c ++ ['"']))
        ++ ['\n']
      = List.replicate n ' ' ++ t ++ ch " = " ++ ('"' :: (a ++ ':' :: (b ++ ':' :: (c ++ '"' :: ['\n'])))) := by
    simp [ch, List.append_assoc]
  rw [e, strtok_tag _ _ _ hw]
  have hl : ∃ k, (List.replicate n ' ' ++ t ++ ch " = "
      ++ ('"' :: (a ++ ':' :: (b ++ ':' :: (c ++ '"' :: ['\n']))))).length + 1 = k + 3 :=
    ⟨(List.replicate n ' ' ++ t ++ ch " = "
      ++ ('"' :: (a ++ ':' :: (b ++ ':' :: (c ++ '"' :: ['\n']))))).length - 2, by simp; omega⟩
  obtain ⟨k, hk'⟩ := hl
  simp only [hk']
  have h1 : strtok sep ('=' :: ' ' :: '"' :: (a ++ ':' :: (b ++ ':' :: (c ++ '"' :: ['\n']))))
      = some (a, b ++ ':' :: (c ++ '"' :: ['\n'])) :=
    strtok_cons sep ['=', ' ', '"'] a _ (by decide) (word_sep ha) ha.1 ':' rfl
  have h2 : strtok sep (b ++ ':' :: (c ++ '"' :: ['\n'])) = some (b, c ++ '"' :: ['\n']) := by
    have := strtok_cons sep [] b (c ++ '"' :: ['\n']) (by simp) (word_sep hb) hb.1 ':' rfl
    simpa using this
  have h3 : strtok sep (c ++ '"' :: ['\n']) = some (c, ['\n']) := by
    have := strtok_cons sep [] c ['\n'] (by simp) (word_sep hc) hc.1 '"' rfl
    simpa using this
  rw [tokenLoop, h1]
  simp only [handle, hk, need, h2, h3, Out.bind]
  rw [tokenLoop, strtok_nl]
  simp only
  rw [handle_plain _ _ _ _ _ _ hp]
  simp only [Out.bind]
  rw [tokenLoop, strtok_nil]
  simp only
  rw [handle_plain _ _ _ _ _ _ plain_nl]
  rfl

/-! ## Files -/

/-- Effect of a line on the state. -/
def lineEff (num : List Char → ℚ) (d : List Char) (st : St) : Line → Out St
  | .entry _ t v q => entryEff num d st t (seen v q)
  | .date _ _ y m dd => .ok { st with ymd := some (natVal y, natVal m, natVal dd) }
  | .clock _ _ a b c => .ok { st with hms := some (atoi a, atoi b, atoi c) }
  | .other _ => .ok st

/-- Effect of the lines of a file. -/
def run (num : List Char → ℚ) (d : List Char) : St → List Line → Out St
  | st, [] => .ok st
  | st, l :: ls => (lineEff num d st l).bind fun st' => run num d st' ls

theorem lineStep_good (num : List Char → ℚ) (d : List Char) (st : St) (l : Line) (h : Good l) :
    lineStep num d st (l.text ++ ['\n']) = lineEff num d st l := by
  cases l with
  | entry n t v q => exact lineStep_entry num d st n t v q h
  | date n t y m dd => exact lineStep_date num d st n t y m dd h
  | clock n t a b c => exact lineStep_clock num d st n t a b c h
  | other x => exact lineStep_other num d st x h.2.2.2

theorem word_newline {x : List Char} (h : Word x) : '\n' ∉ x := fun hc => (h.2 _ hc).2.2.2.2 rfl

theorem digits_newline {x : List Char} (h : ∀ c ∈ x, c.isDigit = true) : '\n' ∉ x := by
  intro hc
  have := h _ hc
  simp at this

theorem good_newline {l : Line} (h : Good l) : '\n' ∉ l.text := by
  have hr : ∀ n, '\n' ∉ List.replicate n ' ' := by
    intro n hc
    have := List.eq_of_mem_replicate hc
    revert this
    decide
  have hs : '\n' ∉ " = ".toList := by decide
  obtain ⟨-, -, h⟩ := h
  cases l with
  | entry n t v q =>
    have h1 := word_newline h.1
    have h2 := word_newline h.2.1
    have := hr n
    cases q <;> simp_all [Line.text]
  | date n t y m d =>
    obtain ⟨ht, hx⟩ := h
    have h1 := word_newline (kind_date_tag ht).2
    have h2 := digits_newline (hx y (by simp)).2
    have h3 := digits_newline (hx m (by simp)).2
    have h4 := digits_newline (hx d (by simp)).2
    have := hr n
    clear ht hx
    simp_all [Line.text]
  | clock n t a b c =>
    have h1 := word_newline (kind_time_tag h.1).2
    have h2 := word_newline h.2.1
    have h3 := word_newline h.2.2.1
    have h4 := word_newline h.2.2.2.1
    have := hr n
    clear h
    simp_all [Line.text]
  | other x => exact h.1

theorem readLines_cons (num : List Char → ℚ) (d : List Char) (st : St) (l : List Char)
    (ls : List (List Char)) : readLines num d st (l :: ls)
      = if ch "END_GROUP = L1_METADATA_FILE" <:+: l then .ok st
        else (lineStep num d st l).bind fun st' => readLines num d st' ls := by
  conv_lhs => unfold readLines

theorem readLines_file (num : List Char → ℚ) (d : List Char) (st : St) (ls : List Line)
    (tail : Option (List Char)) (h : ∀ l ∈ ls, Good l) :
    readLines num d st (fgetsAll 1024 (fileText ls tail)) = run num d st ls := by
  induction ls generalizing st with
  | nil =>
    cases tail with
    | none =>
      have e1 : fileText [] none = [] := by simp only [fileText, List.flatMap_nil, List.append_nil]
      have e2 : fgetsAll 1024 [] = [] := by simp only [fgetsAll, fgetsGo, if_true]
      rw [e1, e2]
      unfold readLines run
      rfl
    | some x =>
      have := fgetsAll_line 1024 (ch "END_GROUP = L1_METADATA_FILE") x (by decide +kernel)
        (by decide +kernel)
      unfold fileText
      simp only [List.flatMap_nil, List.nil_append]
      rw [this, readLines_cons, if_pos (List.prefix_append _ _).isInfix]
      rfl
  | cons l ls ih =>
    have hl := h l (by simp)
    have e : fileText (l :: ls) tail = l.text ++ '\n' :: fileText ls tail := by
      simp [fileText, List.append_assoc]
    rw [e, fgetsAll_line 1024 _ _ (good_newline hl) (by have := hl.1; omega), readLines_cons]
    rw [if_neg (fun hc => hl.2.1 (infix_newline (by decide +kernel) hc)), lineStep_good _ _ _ _ hl,
      run]
    congr 1
    funext st'
    exact ih st' (fun l hl => h l (List.mem_cons_of_mem _ hl))

theorem run_append (num : List Char → ℚ) (d : List Char) (st : St) (a b : List Line) :
    run num d st (a ++ b) = (run num d st a).bind fun st' => run num d st' b := by
  induction a generalizing st with
  | nil => rfl
  | cons l ls ih =>
    simp only [List.cons_append, run]
    cases lineEff num d st l with
    | ok st' => exact ih st'
    | exit => rfl
    | ub => rfl

end Verif.Meta
