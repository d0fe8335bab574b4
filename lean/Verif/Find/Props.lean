import Verif.Find.Model
import Verif.Str.Props2
import Verif.Ard.Names
import Mathlib.Data.List.Basic
import Mathlib.Data.List.Infix
import Mathlib.Data.List.Perm.Basic

/-!
C294: finding a file by a part of its name. C295: the mission of a Level 1 directory.
C296: the granule, tile, images and elevation model of a scene.
-/

namespace Verif.Find

open Verif.Str

/-- Specification: a name matches if the pattern and, if given, the filter occur in it. -/
def Match (pattern : List Char) (filter : Option (List Char)) (name : List Char) : Prop :=
  pattern <:+: name ∧ ∀ f, filter = some f → f <:+: name

theorem strstr_isSome {t w : List Char} : (strstr t w).isSome = true ↔ w <:+: t := by
  have := @Ard.strstr_iff t w
  cases h : strstr t w with
  | none => simp [this.1 h]
  | some k =>
    have h2 : w <:+: t := by
      by_contra hc
      rw [this.2 hc] at h
      cases h
    simp [h2]

theorem fits_iff {p : List Char} {f : Option (List Char)} {n : List Char} : fits p f n = true ↔ Match p f n := by
  unfold fits Match
  cases f with
  | none => simp [strstr_isSome]
  | some f => simp [strstr_isSome]

theorem startFits_iff {p : List Char} {f : Option (List Char)} {n : List Char} :
    startFits p f n = true ↔ (p <+: n ∧ ∀ g, f = some g → g <:+: n) := by
  unfold startFits
  rw [Bool.and_eq_true, List.isPrefixOf_iff_prefix]
  cases f with
  | none => simp
  | some f => simp [strstr_isSome]

theorem find_first {names : List (List Char)} {q : List Char → Bool} {pre post : List (List Char)} {n : List Char}
    (e : names = pre ++ n :: post) (h : q n = true) (hp : ∀ m ∈ pre, q m ≠ true) : names.find? q = some n := by
  subst e
  rw [List.find?_append, List.find?_eq_none.2 (by intro m hm; simpa using hp m hm)]
  simp [h]

/-- C294: the first name in the directory that matches is returned with the directory in front, if both fit into
the buffer, and the directory is closed. -/
theorem c294_found (dir : List Char) (names pre post : List (List Char)) (name pattern : List Char)
    (filter : Option (List Char)) (size : Nat) (e : names = pre ++ name :: post) (h : Match pattern filter name)
    (hp : ∀ m ∈ pre, ¬ Match pattern filter m) (hs : dir.length + 1 + name.length < size) :
    find dir (some names) pattern filter size = ⟨true, dir ++ '/' :: name, true⟩ := by
  unfold find
  dsimp only
  rw [find_first e (fits_iff.2 h) (fun m hm => fun hc => hp m hm (fits_iff.1 hc))]
  show assemble dir name size = _
  unfold assemble
  rw [if_neg (by omega)]
  dsimp only
  rw [if_neg (by rw [List.length_append, List.length_cons]; omega)]

example : find "d".toList (some ["a.txt".toList, "x_MTL.txt".toList, "MTL.txt".toList]) "MTL".toList
    (some ".txt".toList) 12 = ⟨true, "d/x_MTL.txt".toList, true⟩ :=
  c294_found _ _ ["a.txt".toList] ["MTL.txt".toList] "x_MTL.txt".toList _ _ _ rfl
    ⟨⟨"x_".toList, ".txt".toList, by decide⟩, fun f hf => by
      cases hf; exact ⟨"x_MTL".toList, [], by decide⟩⟩
    (by
      intro m hm hc
      rw [List.mem_singleton] at hm
      subst hm
      have := strstr_isSome.2 hc.1
      revert this
      decide) (by decide)

/-- C294: the search succeeds only in this way; a reported name is always the one of a matching file in the
directory, complete, and fits into the buffer with its terminating NUL. -/
theorem c294_only (dir : List Char) (listing : Option (List (List Char))) (pattern : List Char)
    (filter : Option (List Char)) (size : Nat) (h : (find dir listing pattern filter size).ok = true) :
    ∃ names name, listing = some names ∧ name ∈ names ∧ Match pattern filter name ∧
      (find dir listing pattern filter size).fname = dir ++ '/' :: name ∧
      (find dir listing pattern filter size).fname.length < size := by
  cases listing with
  | none => cases h
  | some names =>
    unfold find at h ⊢
    dsimp only at h ⊢
    cases hf : names.find? (fits pattern filter) with
    | none => rw [hf] at h; cases h
    | some name =>
      rw [hf] at h
      dsimp only at h ⊢
      refine ⟨names, name, rfl, List.mem_of_find?_eq_some hf, fits_iff.1 (List.find?_some hf), ?_⟩
      unfold assemble at h ⊢
      dsimp only at h ⊢
      by_cases h1 : dir.length + name.length + 1 > size
      · rw [if_pos h1] at h; cases h
      · rw [if_neg h1] at h ⊢
        by_cases h2 : (dir ++ '/' :: name).length ≥ size
        · rw [if_pos h2] at h; cases h
        · rw [if_neg h2]
          exact ⟨rfl, Nat.lt_of_not_le h2⟩

/-- C294: without a matching name, or if the directory cannot be opened, the search fails with an empty name and
nothing remains open. -/
theorem c294_none (dir : List Char) (listing : Option (List (List Char))) (pattern : List Char)
    (filter : Option (List Char)) (size : Nat)
    (h : ∀ names, listing = some names → ∀ m ∈ names, ¬ Match pattern filter m) :
    find dir listing pattern filter size = ⟨false, [], true⟩ := by
  cases listing with
  | none => rfl
  | some names =>
    unfold find
    dsimp only
    rw [List.find?_eq_none.2 (by
      intro m hm hc
      exact h names rfl m hm (fits_iff.1 hc))]

/-- C294: a file that does not fit by two characters or more is a failure with an empty name; also if another
matching file follows. -/
theorem c294_long_partial (dir : List Char) (names pre post : List (List Char)) (name pattern : List Char)
    (filter : Option (List Char)) (size : Nat) (e : names = pre ++ name :: post) (h : Match pattern filter name)
    (hp : ∀ m ∈ pre, ¬ Match pattern filter m) (hs : size < dir.length + 1 + name.length) :
    find dir (some names) pattern filter size = ⟨false, [], true⟩ := by
  unfold find
  dsimp only
  rw [find_first e (fits_iff.2 h) (fun m hm => fun hc => hp m hm (fits_iff.1 hc))]
  show assemble dir name size = _
  unfold assemble
  rw [if_pos (by omega)]

/-- C294, violated: if directory, slash and name have exactly as many characters as the buffer, the failure leaves
the name without its last character in the buffer (not the empty name), and the directory open. -/
theorem c294_exact_violated (dir : List Char) (names pre post : List (List Char)) (name pattern : List Char)
    (filter : Option (List Char)) (size : Nat) (e : names = pre ++ name :: post) (h : Match pattern filter name)
    (hp : ∀ m ∈ pre, ¬ Match pattern filter m) (hs : size = dir.length + 1 + name.length) :
    find dir (some names) pattern filter size = ⟨false, (dir ++ '/' :: name).dropLast, false⟩ := by
  unfold find
  dsimp only
  rw [find_first e (fits_iff.2 h) (fun m hm => fun hc => hp m hm (fits_iff.1 hc))]
  show assemble dir name size = _
  unfold assemble
  have hl : (dir ++ '/' :: name).length = size := by rw [List.length_append, List.length_cons]; omega
  rw [if_neg (by omega)]
  dsimp only
  rw [if_pos (by omega), List.dropLast_eq_take, hl]

example : find "d".toList (some ["ab.txt".toList]) "a".toList none 8 = ⟨false, "d/ab.tx".toList, false⟩ := by
  decide

/-- C294, violated: a search for a file by the start of its name leaves the directory open whenever there is no
such file. -/
theorem c294_leak_violated (dir : List Char) (names : List (List Char)) (pattern : List Char)
    (filter : Option (List Char)) (size : Nat)
    (h : ∀ m ∈ names, ¬ (pattern <+: m ∧ ∀ f, filter = some f → f <:+: m)) :
    findStarts dir (some names) pattern filter size = ⟨false, [], false⟩ := by
  unfold findStarts
  dsimp only
  rw [List.find?_eq_none.2 (by
    intro m hm hc
    exact h m hm (startFits_iff.1 hc))]

/-- C294: the first file whose name starts with the pattern (and contains the filter) is found. -/
theorem c294_starts (dir : List Char) (names pre post : List (List Char)) (name pattern : List Char)
    (filter : Option (List Char)) (size : Nat) (e : names = pre ++ name :: post)
    (h : pattern <+: name ∧ ∀ f, filter = some f → f <:+: name)
    (hp : ∀ m ∈ pre, ¬ (pattern <+: m ∧ ∀ f, filter = some f → f <:+: m))
    (hs : dir.length + 1 + name.length < size) :
    findStarts dir (some names) pattern filter size = ⟨true, dir ++ '/' :: name, true⟩ := by
  unfold findStarts
  dsimp only
  rw [find_first e (startFits_iff.2 h) (fun m hm => fun hc => hp m hm (startFits_iff.1 hc))]
  show assemble dir name size = _
  unfold assemble
  rw [if_neg (by omega)]
  dsimp only
  rw [if_neg (by rw [List.length_append, List.length_cons]; omega)]

example : findStarts "b".toList (some ["12018.tif".toList, "2018_x.tif".toList]) "2018".toList none 1024 =
    ⟨true, "b/2018_x.tif".toList, true⟩ := by decide

open Classical in
/-- C294: the number of files with a pattern is the number of names in which it occurs. -/
theorem c294_count (names : List (List Char)) (pattern : List Char) :
    count (some names) pattern = (names.filter (fun n => decide (pattern <:+: n))).length := by
  have key : ∀ (l : List (List Char)) (k : Nat),
      l.foldl (fun k n => if (strstr n pattern).isSome then k + 1 else k) k =
        k + (l.filter (fun n => decide (pattern <:+: n))).length := by
    intro l
    induction l with
    | nil => intro k; rfl
    | cons n l ih =>
      intro k
      rw [List.foldl_cons, ih, List.filter_cons]
      by_cases h : pattern <:+: n
      · rw [if_pos (strstr_isSome.2 h), if_pos (by simpa using h), List.length_cons]; omega
      · rw [if_neg (fun hc => h (strstr_isSome.1 hc)), if_neg (by simpa using h)]
  have := key names 0
  rw [Nat.zero_add] at this
  exact this

example : count (some ["a.jp2".toList, "b.xml".toList, "c.jp2".toList]) ".jp2".toList = 2 := by decide

/-! ## The mission -/

/-- A search in a directory whose names all fit succeeds exactly if there is a match. -/
theorem find_ok (dir : List Char) (names : List (List Char)) (pattern : List Char) (filter : Option (List Char))
    (size : Nat) (hs : ∀ n ∈ names, dir.length + 1 + n.length < size) :
    (find dir (some names) pattern filter size).ok = true ↔ ∃ n ∈ names, Match pattern filter n := by
  constructor
  · intro h
    obtain ⟨ns, n, e, hn, hm, -⟩ := c294_only _ _ _ _ _ h
    cases e
    exact ⟨n, hn, hm⟩
  · rintro ⟨n, hn, hm⟩
    cases hf : names.find? (fits pattern filter) with
    | none => exact absurd (fits_iff.2 hm) (List.find?_eq_none.1 hf n hn)
    | some k =>
      unfold find
      dsimp only
      rw [hf]
      show (assemble dir k size).ok = true
      have := hs k (List.mem_of_find?_eq_some hf)
      unfold assemble
      rw [if_neg (by omega)]
      dsimp only
      rw [if_neg (by rw [List.length_append, List.length_cons]; omega)]

/-- Specification: the directory has a Landsat metadata file. -/
def IsLandsat (names : List (List Char)) : Prop :=
  ∃ n ∈ names, "MTL".toList <:+: n ∧ ".txt".toList <:+: n

/-- Specification: the directory has Sentinel-2 metadata. -/
def IsSentinel (names : List (List Char)) : Prop :=
  ∃ n ∈ names, ("S2A".toList <:+: n ∨ "MTD".toList <:+: n) ∧ ".xml".toList <:+: n

theorem match_some {p f n : List Char} : Match p (some f) n ↔ p <:+: n ∧ f <:+: n := by
  unfold Match
  simp

/-- C295: a directory with a file with MTL and .txt in its name is Landsat; otherwise one with a file with S2A or
MTD and .xml is Sentinel-2; otherwise the mission is unknown. The resolution is the one of the mission and not
changed for an unknown one. -/
theorem c295_mission (dir : List Char) (names : List (List Char)) (rl rs before : Int)
    (hs : ∀ n ∈ names, dir.length + 1 + n.length < 1024) :
    (IsLandsat names → mission dir (some names) rl rs before = (.landsat, rl)) ∧
    (¬ IsLandsat names → IsSentinel names → mission dir (some names) rl rs before = (.sentinel2, rs)) ∧
    (¬ IsLandsat names → ¬ IsSentinel names → mission dir (some names) rl rs before = (.unknown, before)) := by
  have k1 := find_ok dir names "MTL".toList (some ".txt".toList) 1024 hs
  have k2 := find_ok dir names "S2A".toList (some ".xml".toList) 1024 hs
  have k3 := find_ok dir names "MTD".toList (some ".xml".toList) 1024 hs
  simp only [match_some] at k1 k2 k3
  have s : IsSentinel names ↔ ((∃ n ∈ names, "S2A".toList <:+: n ∧ ".xml".toList <:+: n) ∨
      ∃ n ∈ names, "MTD".toList <:+: n ∧ ".xml".toList <:+: n) := by
    constructor
    · rintro ⟨n, hn, h | h, hx⟩
      · exact Or.inl ⟨n, hn, h, hx⟩
      · exact Or.inr ⟨n, hn, h, hx⟩
    · rintro (⟨n, hn, h, hx⟩ | ⟨n, hn, h, hx⟩)
      · exact ⟨n, hn, Or.inl h, hx⟩
      · exact ⟨n, hn, Or.inr h, hx⟩
  unfold mission
  refine ⟨fun h => ?_, fun h hx => ?_, fun h hx => ?_⟩
  · rw [if_pos (k1.2 h)]
  · rw [if_neg (fun hc => h (k1.1 hc)), if_pos]
    rw [Bool.or_eq_true, k2, k3]
    exact s.1 hx
  · rw [if_neg (fun hc => h (k1.1 hc)), if_neg]
    rw [Bool.or_eq_true, k2, k3]
    exact fun hc => hx (s.2 hc)

/-- C295: the mission does not depend on the order in which the directory is listed. -/
theorem c295_order (dir : List Char) (names names' : List (List Char)) (rl rs before : Int)
    (hp : names.Perm names') (hs : ∀ n ∈ names, dir.length + 1 + n.length < 1024) :
    mission dir (some names) rl rs before = mission dir (some names') rl rs before := by
  have h1 := c295_mission dir names rl rs before hs
  have h2 := c295_mission dir names' rl rs before (fun n hn => hs n (hp.mem_iff.2 hn))
  have e1 : IsLandsat names ↔ IsLandsat names' := by unfold IsLandsat; simp only [hp.mem_iff]
  have e2 : IsSentinel names ↔ IsSentinel names' := by unfold IsSentinel; simp only [hp.mem_iff]
  by_cases a : IsLandsat names
  · rw [h1.1 a, h2.1 (e1.1 a)]
  · by_cases b : IsSentinel names
    · rw [h1.2.1 a b, h2.2.1 (fun hc => a (e1.2 hc)) (e2.1 b)]
    · rw [h1.2.2 a b, h2.2.2 (fun hc => a (e1.2 hc)) (fun hc => b (e2.2 hc))]

/-- C295: a directory that cannot be opened is of unknown mission. -/
theorem c295_closed (dir : List Char) (rl rs before : Int) :
    mission dir none rl rs before = (.unknown, before) := rfl

example : mission "/l1/LC08".toList (some ["x_B1.TIF".toList, "x_MTL.xml".toList, "x_MTL.txt".toList]) 30 10 0 =
    (.landsat, 30) := by decide +kernel
example : mission "/l1/L1C".toList (some ["IMG_DATA".toList, "MTD_TL.xml".toList]) 30 10 0 =
    (.sentinel2, 10) := by decide +kernel
example : mission "/l1/L1C".toList (some ["IMG_DATA".toList, "MTD_TL.txt".toList]) 30 10 0 =
    (.unknown, 0) := by decide +kernel

end Verif.Find
