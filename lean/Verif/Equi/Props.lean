import Verif.Equi.Model
import Verif.Naming.Props
import Verif.Tsa.Names
import Mathlib.Tactic.Linarith
import Mathlib.Tactic.Ring
import Mathlib.Tactic.FieldSimp

/-!
# Continental datacubes and images that are not tiled: C306 to C309
-/

namespace Verif.Equi

/-! ### Specification -/

/-- The continents: code in PROJECTION, and directory of the datacube. -/
def Spec.continents : List (Text × Text) :=
  [("AF".toList, "africa".toList), ("AN".toList, "antarctica".toList), ("AS".toList, "asia".toList),
   ("EU".toList, "europe".toList), ("NA".toList, "n-america".toList), ("OC".toList, "oceania".toList),
   ("SA".toList, "s-america".toList)]

/-! ### C306: which datacubes -/

/-- C306: with EQUI7 every continent has a datacube, with EQUI7 and the code of a continent only this one has; with
GLANCE7 every continent has a datacube. -/
theorem c306_grid_partial :
    multicube true "EQUI7".toList = .equi7 (Spec.continents.map (·.2)) ∧
    multicube true "GLANCE7".toList = .glance7 (Spec.continents.map (·.2)) ∧
    ∀ k ∈ Spec.continents, multicube true ("EQUI7-".toList ++ k.1) = .equi7 [k.2] := by
  decide

/-- C306: every other projection, and every run without reprojection, has one datacube. -/
theorem c306_single (doreproj : Bool) (proj : Text)
    (h : doreproj = true → ∀ g ∈ ["EQUI7".toList, "GLANCE7".toList],
      proj ≠ g ∧ ∀ k ∈ Spec.continents, proj ≠ g ++ '-' :: k.1) :
    multicube doreproj proj = .single := by
  unfold multicube
  cases doreproj with
  | false => rfl
  | true =>
    have h := h rfl
    have e := h "EQUI7".toList (by simp)
    have g := h "GLANCE7".toList (by simp)
    have ek := e.2
    have gk := g.2
    unfold Spec.continents at ek gk
    simp only [List.forall_mem_cons, List.not_mem_nil, false_imp_iff, implies_true, and_true] at ek gk
    obtain ⟨e1, e2, e3, e4, e5, e6, e7⟩ := ek
    obtain ⟨g1, g2, g3, g4, g5, g6, g7⟩ := gk
    rw [if_neg, if_neg]
    · simp only [Bool.true_and, Bool.or_eq_true, beq_iff_eq, not_or]
      exact ⟨⟨⟨⟨⟨⟨⟨g.1, g1⟩, g2⟩, g3⟩, g4⟩, g5⟩, g6⟩, g7⟩
    · simp only [Bool.true_and, Bool.or_eq_true, beq_iff_eq, not_or]
      exact ⟨⟨⟨⟨⟨⟨⟨e.1, e1⟩, e2⟩, e3⟩, e4⟩, e5⟩, e6⟩, e7⟩

example : multicube true "GLANCE-AF".toList = .single ∧ multicube false "EQUI7".toList = .single ∧
    multicube true "PROJCS[]".toList = .single := by decide

/-- C306, violated: with GLANCE7 and the code of a continent no datacube is started at all, as the names are compared
with a table without the 7: nothing is written, and the program succeeds. -/
theorem c306_glance_violated : ∀ k ∈ Spec.continents, multicube true ("GLANCE7-".toList ++ k.1) = .glance7 [] := by
  decide

/-! ### C307: the names in the dictionary -/

theorem roundEven_int (n : Int) : Libc.roundEven (n : ℚ) = n := by
  unfold Libc.roundEven
  simp

theorem max_fold (tiles : List (Int × Int)) (m : Int) :
    m ≤ tiles.foldl (fun m t => if t.2 > m then t.2 else m) m ∧
    (∀ t ∈ tiles, t.2 ≤ tiles.foldl (fun m t => if t.2 > m then t.2 else m) m) ∧
    (tiles.foldl (fun m t => if t.2 > m then t.2 else m) m = m ∨
      ∃ t ∈ tiles, t.2 = tiles.foldl (fun m t => if t.2 > m then t.2 else m) m) := by
  induction tiles generalizing m with
  | nil => simp
  | cons a l ih =>
    rw [List.foldl_cons]
    have i := ih (if a.2 > m then a.2 else m)
    generalize hr : l.foldl (fun m t => if t.2 > m then t.2 else m) (if a.2 > m then a.2 else m) = r at i
    obtain ⟨i1, i2, i3⟩ := i
    have ha : m ≤ (if a.2 > m then a.2 else m) ∧ a.2 ≤ (if a.2 > m then a.2 else m) := by
      by_cases h : a.2 > m
      · rw [if_pos h]; omega
      · rw [if_neg h]; omega
    refine ⟨by omega, ?_, ?_⟩
    · intro t ht
      rcases List.mem_cons.1 ht with h | h
      · rw [h]; omega
      · exact i2 t h
    · rcases i3 with h | ⟨t, ht, h⟩
      · by_cases hc : a.2 > m
        · rw [if_pos hc] at h
          exact Or.inr ⟨a, List.mem_cons_self, h.symm⟩
        · rw [if_neg hc] at h
          exact Or.inl h
      · exact Or.inr ⟨t, List.mem_cons_of_mem _ ht, h⟩

theorem fold_top {tiles : List (Int × Int)} {M : Int} (h0 : 0 ≤ M) (hM : ∃ t ∈ tiles, t.2 = M)
    (hmax : ∀ t ∈ tiles, t.2 ≤ M) : tiles.foldl (fun m t => if t.2 > m then t.2 else m) (0 : Int) = M := by
  obtain ⟨a, b, c⟩ := max_fold tiles 0
  obtain ⟨t, ht, e⟩ := hM
  have := b t ht
  rcases c with c | ⟨u, hu, c⟩
  · omega
  · have := hmax u hu
    omega

theorem corner_eq {tiles : List (Int × Int)} {M : Int} (h0 : 0 ≤ M) (hM : ∃ t ∈ tiles, t.2 = M)
    (hmax : ∀ t ∈ tiles, t.2 ≤ M) (t : Int × Int) :
    (corner tiles t).1 / 100000 = (t.1 : ℚ) ∧ (corner tiles t).2 / 100000 = ((M - t.2 : Int) : ℚ) := by
  unfold corner originY
  rw [fold_top h0 hM hmax]
  dsimp only
  push_cast
  constructor
  · ring
  · ring

theorem name_eq {tiles : List (Int × Int)} {M : Int} (h0 : 0 ≤ M) (hM : ∃ t ∈ tiles, t.2 = M)
    (hmax : ∀ t ∈ tiles, t.2 ≤ M) (abbr : Text) (t : Int × Int) :
    equi7Name abbr tiles t = "E7G_".toList ++ abbr ++ '_' :: Libc.fmtInt0 3 t.1 ++ '_' :: Libc.fmtInt0 3 (M - t.2) ++
      "_T1".toList := by
  unfold equi7Name fmt3
  rw [(corner_eq h0 hM hmax t).1, (corner_eq h0 hM hmax t).2, roundEven_int, roundEven_int]

/-- C307: the dictionary has one line for each tile, in the order of the tiles: its name in the datacube, and its name in
EQUI7, which has the number of tiles from the left end of the grid and from its lower end to the lower left corner of the
tile (`M` is the largest row). -/
theorem c307_lines (abbr : Text) (tiles : List (Int × Int)) (M : Int) (h0 : 0 ≤ M) (hM : ∃ t ∈ tiles, t.2 = M)
    (hmax : ∀ t ∈ tiles, t.2 ≤ M) :
    dictionary abbr tiles = (tiles.map (fun t =>
      "X".toList ++ Libc.fmtInt0 4 t.1 ++ "_Y".toList ++ Libc.fmtInt0 4 t.2 ++ " E7G_".toList ++ abbr ++ "_".toList ++
        Libc.fmtInt0 3 t.1 ++ "_".toList ++ Libc.fmtInt0 3 (M - t.2) ++ "_T1\n".toList)).flatten := by
  unfold dictionary
  rw [List.flatMap_def]
  congr 1
  apply List.map_congr_left
  intro t _
  rw [name_eq h0 hM hmax]
  unfold forceName
  simp

example : dictionary "EU".toList [(55, 0), (7, 1), (12, 3)] =
    "X0055_Y0000 E7G_EU_055_003_T1\nX0007_Y0001 E7G_EU_007_002_T1\nX0012_Y0003 E7G_EU_012_000_T1\n".toList := by
  rw [c307_lines _ _ 3 (by decide) ⟨(12, 3), by decide, rfl⟩ (by decide)]
  decide +kernel

theorem fmt_val (w : Nat) (v : Int) (h : 0 ≤ v) : Libc.natVal (Libc.fmtInt0 w v) = v.natAbs := by
  rw [Libc.fmtInt0, if_neg (by omega), Libc.fmtNat0]
  split
  · next hl => rw [Libc.natVal_padDigits, Nat.mod_eq_of_lt hl]
  · rw [Libc.natVal_decDigits]

theorem fmt_eq {w : Nat} {v u : Int} (h0 : 0 ≤ v) (k0 : 0 ≤ u) (h : Libc.fmtInt0 w v = Libc.fmtInt0 w u) : v = u := by
  have a := fmt_val w v h0
  rw [h, fmt_val w u k0] at a
  omega

theorem fmt_clean (w : Nat) (v : Int) (h : 0 ≤ v) : '_' ∉ Libc.fmtInt0 w v := by
  intro hc
  rw [Libc.fmtInt0, if_neg (by omega), Libc.fmtNat0] at hc
  split at hc
  · exact absurd (Libc.padDigits_isDigit _ _ _ hc) (by decide)
  · exact absurd (Libc.decDigits_isDigit _ _ hc) (by decide)

/-- C307: two tiles have the same name in the datacube only if they are the same tile, and the same name in EQUI7 only if
they are the same tile of the same continent. -/
theorem c307_distinct (a b : Text) (s t : List (Int × Int)) (M N : Int) (h0 : 0 ≤ M) (k0 : 0 ≤ N)
    (hM : ∃ x ∈ s, x.2 = M) (hmax : ∀ x ∈ s, 0 ≤ x.1 ∧ 0 ≤ x.2 ∧ x.2 ≤ M) (kM : ∃ x ∈ t, x.2 = N)
    (kmax : ∀ x ∈ t, 0 ≤ x.1 ∧ 0 ≤ x.2 ∧ x.2 ≤ N) (ha : '_' ∉ a) (hb : '_' ∉ b) (x y : Int × Int) (hx : x ∈ s)
    (hy : y ∈ t) :
    (forceName x = forceName y → x = y) ∧
    (equi7Name a s x = equi7Name b t y → a = b ∧ x.1 = y.1 ∧ M - x.2 = N - y.2) := by
  have X := hmax x hx
  have Y := kmax y hy
  constructor
  · intro h
    unfold forceName at h
    have h' : Libc.fmtInt0 4 x.1 ++ '_' :: ('Y' :: Libc.fmtInt0 4 x.2) =
        Libc.fmtInt0 4 y.1 ++ '_' :: ('Y' :: Libc.fmtInt0 4 y.2) := by simpa using h
    obtain ⟨e1, e2⟩ := Verif.Tsa.split_first '_' _ _ _ _ (fmt_clean 4 _ X.1) (fmt_clean 4 _ Y.1) h'
    have f1 := fmt_eq X.1 Y.1 e1
    have f2 := fmt_eq X.2.1 Y.2.1 (List.cons.inj e2).2
    exact Prod.ext f1 f2
  · intro h
    rw [name_eq h0 hM (fun z hz => (hmax z hz).2.2), name_eq k0 kM (fun z hz => (kmax z hz).2.2)] at h
    have h' : a ++ '_' :: (Libc.fmtInt0 3 x.1 ++ '_' :: (Libc.fmtInt0 3 (M - x.2) ++ '_' :: "T1".toList)) =
        b ++ '_' :: (Libc.fmtInt0 3 y.1 ++ '_' :: (Libc.fmtInt0 3 (N - y.2) ++ '_' :: "T1".toList)) := by simpa using h
    obtain ⟨e1, e2⟩ := Verif.Tsa.split_first '_' _ _ _ _ ha hb h'
    obtain ⟨e3, e4⟩ := Verif.Tsa.split_first '_' _ _ _ _ (fmt_clean 3 _ X.1) (fmt_clean 3 _ Y.1) e2
    obtain ⟨e5, _⟩ := Verif.Tsa.split_first '_' _ _ _ _ (fmt_clean 3 _ (by omega)) (fmt_clean 3 _ (by omega)) e4
    exact ⟨e1, fmt_eq X.1 Y.1 e3, fmt_eq (by omega) (by omega) e5⟩

example : ∀ x ∈ [(55, 0), (7, 1), ((12, 3) : Int × Int)], 0 ≤ x.1 ∧ 0 ≤ x.2 ∧ x.2 ≤ 3 := by decide

/-! ### C308: the file of the dictionary -/

/-- C308: the first run in a directory that can be written leaves the whole dictionary, and changes no other file. -/
theorem c308_written (dir abbr : Text) (tiles : List (Int × Int)) (fs : Files)
    (h : fs (dir ++ "/equi7-tile-dictionary.txt".toList) = none) (hl : dir.length < 998) (defined : Bool) :
    (prepare true true defined dir abbr tiles fs).1 (dir ++ "/equi7-tile-dictionary.txt".toList) =
      some (dictionary abbr tiles) ∧
    (∀ n, n ≠ dir ++ "/equi7-tile-dictionary.txt".toList → (prepare true true defined dir abbr tiles fs).1 n = fs n) ∧
    ((prepare true true defined dir abbr tiles fs).2 = .started ↔ defined = true) := by
  have e : writeDict dir abbr tiles true fs =
      (fun n => if n = dictName dir then some (dictionary abbr tiles) else fs n, true) := by
    unfold writeDict
    rw [if_neg (by
      unfold dictName
      rw [List.length_append]
      have : ("/equi7-tile-dictionary.txt".toList).length = 26 := by decide
      omega), if_neg (by unfold dictName; rw [h]; simp), if_pos rfl]
  unfold prepare
  rw [e]
  cases defined
  · refine ⟨?_, ?_, ?_⟩
    · exact if_pos rfl
    · intro n hn
      exact if_neg hn
    · simp
  · refine ⟨?_, ?_, ?_⟩
    · exact if_pos rfl
    · intro n hn
      exact if_neg hn
    · simp

/-- C308: a dictionary that exists is never changed, and no other file is; also if nothing can be written. -/
theorem c308_kept (made writable defined : Bool) (dir abbr : Text) (tiles : List (Int × Int)) (fs : Files)
    (content : Text) (h : fs (dir ++ "/equi7-tile-dictionary.txt".toList) = some content) :
    (prepare made writable defined dir abbr tiles fs).1 = fs := by
  have e : (writeDict dir abbr tiles writable fs).1 = fs := by
    unfold writeDict
    by_cases hl : (dictName dir).length ≥ 1024
    · rw [if_pos hl]
    · rw [if_neg hl, if_pos (by unfold dictName; rw [h]; rfl)]
  unfold prepare
  rw [e]
  split
  · rfl
  · split
    · rfl
    · split <;> rfl

/-- C308: if the directory of the datacube cannot be created, the program fails and no file is changed. -/
theorem c308_nodir (writable defined : Bool) (dir abbr : Text) (tiles : List (Int × Int)) (fs : Files) :
    prepare false writable defined dir abbr tiles fs = (fs, .stopped) := by
  unfold prepare
  rw [if_pos (by decide)]

/-- C308, violated: if the program is killed while it writes the dictionary, the part that was written stays: every later
run takes it for the dictionary, and succeeds. -/
theorem c308_killed_violated (dir abbr : Text) (tiles : List (Int × Int)) (k : Nat) (fs : Files)
    (h : fs (dir ++ "/equi7-tile-dictionary.txt".toList) = none) (hl : dir.length < 998)
    (hk : k < (dictionary abbr tiles).length) (writable : Bool) :
    (prepare true writable true dir abbr tiles (killedDict dir abbr tiles k fs)).2 = .started ∧
    ∃ part, (prepare true writable true dir abbr tiles (killedDict dir abbr tiles k fs)).1
        (dir ++ "/equi7-tile-dictionary.txt".toList) = some part ∧ part.length = k ∧ part ≠ dictionary abbr tiles := by
  have e : killedDict dir abbr tiles k fs = fun n => if n = dictName dir then some ((dictionary abbr tiles).take k) else fs n := by
    unfold killedDict
    rw [if_neg (by unfold dictName; rw [h]; simp)]
  have c : killedDict dir abbr tiles k fs (dictName dir) = some ((dictionary abbr tiles).take k) := by
    rw [e]; dsimp only; rw [if_pos rfl]
  have len : ((dictionary abbr tiles).take k).length = k := by rw [List.length_take]; omega
  refine ⟨?_, (dictionary abbr tiles).take k, ?_, len, ?_⟩
  · have e2 : (writeDict dir abbr tiles writable (killedDict dir abbr tiles k fs)).2 = true := by
      unfold writeDict
      rw [if_neg (by
        unfold dictName
        rw [List.length_append]
        have : ("/equi7-tile-dictionary.txt".toList).length = 26 := by decide
        omega), if_pos (by rw [c]; rfl)]
    unfold prepare
    rw [e2]
    rfl
  · rw [c308_kept true writable true dir abbr tiles _ _ c]
    exact c
  · intro hc
    rw [hc] at len
    omega

example : (dictionary "EU".toList [(55, 0)]).length = 30 := by
  rw [c307_lines _ _ 0 (by decide) ⟨(55, 0), by decide, rfl⟩ (by decide)]
  decide +kernel

/-- C308, violated: if there is no dictionary and it cannot be created, or its name is too long, the datacube is freed,
and used afterwards. -/
theorem c308_denied_violated (dir abbr : Text) (tiles : List (Int × Int)) (fs : Files) (writable defined : Bool)
    (h : 998 ≤ dir.length ∨ (writable = false ∧ fs (dir ++ "/equi7-tile-dictionary.txt".toList) = none)) :
    prepare true writable defined dir abbr tiles fs = (fs, .undefined) := by
  have e : writeDict dir abbr tiles writable fs = (fs, false) := by
    unfold writeDict
    by_cases hl : (dictName dir).length ≥ 1024
    · rw [if_pos hl]
    · rw [if_neg hl]
      have : ¬ 998 ≤ dir.length := by
        intro hc
        apply hl
        unfold dictName
        rw [List.length_append]
        have : ("/equi7-tile-dictionary.txt".toList).length = 26 := by decide
        omega
      rcases h with h | ⟨h1, h2⟩
      · exact absurd h this
      · rw [if_neg (by unfold dictName; rw [h2]; simp), if_neg (by rw [h1]; decide)]
  unfold prepare
  rw [e]
  rfl

end Verif.Equi
