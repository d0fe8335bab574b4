import Verif.Cube.Spec
import Verif.Libc.Lemmas

/-!
# Properties C19 and C20: the datacube definition
-/

namespace Verif.Cube
open Spec Verif.Libc

/-! ## C19 -/

/-- A number with six decimals survives printing with `%f` and reading with `atof`. -/
theorem atof_fmtF_sixDecimals (rd : ℚ → ℚ) (v : ℚ) (h : SixDecimals rd v) : atof rd (fmtF v) = v := by
  obtain ⟨k, hk, hc⟩ := h
  rw [atof_fmtF]
  rw [abs_lt] at hc
  by_cases hv : v < 0
  · rw [if_pos hv, abs_of_neg hv]
    have h1 : roundEven (-v * 1000000) = -k := by
      apply roundEven_of_close; rw [abs_lt]; push_cast; constructor <;> linarith
    have h2 : (-k : ℤ) ≥ 0 := by
      by_contra hneg
      have : (1 : ℤ) ≤ k := by omega
      have : (1 : ℚ) ≤ k := by exact_mod_cast this
      linarith
    rw [h1]
    have h3 : (((-k).toNat : Nat) : ℚ) = ((-k : ℤ) : ℚ) := by
      have : (((-k).toNat : Nat) : ℤ) = -k := by omega
      exact_mod_cast this
    rw [h3]
    conv_rhs => rw [hk]
    congr 1; push_cast; ring
  · rw [if_neg hv, abs_of_nonneg (not_lt.1 hv)]
    have h1 : roundEven (v * 1000000) = k := by
      apply roundEven_of_close; rw [abs_lt]; constructor <;> linarith
    have h2 : k ≥ 0 := by
      by_contra hneg
      have : k ≤ -1 := by omega
      have : (k : ℚ) ≤ -1 := by exact_mod_cast this
      linarith
    rw [h1]
    have h3 : ((k.toNat : Nat) : ℚ) = (k : ℚ) := by
      have : ((k.toNat : Nat) : ℤ) = k := by omega
      exact_mod_cast this
    rw [h3]
    conv_rhs => rw [hk]
    congr 1; ring

theorem fmtF_noSep (v : ℚ) : ∀ c ∈ fmtF v, c ≠ ' ' ∧ c ≠ '=' ∧ c ≠ '\r' ∧ c ≠ '\n' := by
  intro c hc
  refine ⟨?_, ?_, ?_, ?_⟩ <;> (rintro rfl; revert hc; intro hc; rcases fmtF_chars v _ hc with h | h | h <;> revert h <;> decide)

theorem isSep_false {c : Char} (h1 : c ≠ ' ') (h2 : c ≠ '=') : isSep c = false := by
  simp [isSep, h1, h2]

theorem isEol_false {c : Char} (h1 : c ≠ '\r') (h2 : c ≠ '\n') : isEol c = false := by
  simp [isEol, h1, h2]

/-- A line as written is read as its tag and its first word. -/
theorem tagValueLine_tagLine (tag val : List Char)
    (ht : tag ≠ []) (ht' : ∀ c ∈ tag, c ≠ ' ' ∧ c ≠ '=' ∧ c ≠ '\r' ∧ c ≠ '\n') (htl : tag.length < 1024)
    (hv : val ≠ []) (hv' : ∀ c ∈ val, c ≠ ' ' ∧ c ≠ '=' ∧ c ≠ '\r' ∧ c ≠ '\n') (hvl : val.length < 1024) :
    tagValueLine (tagLine tag val) = .ok (tag, val) := by
  unfold tagValueLine tagLine
  have hcut : cutAt isEol (tag ++ ' ' :: '=' :: ' ' :: val ++ ['\n']) =
      [] ++ (tag ++ ' ' :: ('=' :: ' ' :: val)) := by
    rw [List.nil_append]
    apply cutAt_line
    · intro c hc
      simp only [List.mem_append, List.mem_cons] at hc
      rcases hc with hc | rfl | rfl | rfl | hc
      · exact isEol_false (ht' c hc).2.2.1 (ht' c hc).2.2.2
      · decide
      · decide
      · decide
      · exact isEol_false (hv' c hc).2.2.1 (hv' c hc).2.2.2
    · decide
  rw [hcut, strtok_cons isSep [] tag _ (by simp) (fun c hc => isSep_false (ht' c hc).1 (ht' c hc).2.1) ht
    ' ' (by decide)]
  simp only []
  rw [if_neg (by omega)]
  have := strtok_end isSep ['=', ' '] val (by decide)
    (fun c hc => isSep_false (hv' c hc).1 (hv' c hc).2.1) hv
  simp only [List.cons_append, List.nil_append] at this
  rw [this]
  simp only []
  rw [if_neg (by omega)]

theorem tagValueLine_tagLine_cut (tag a b : List Char)
    (ht : tag ≠ []) (ht' : ∀ c ∈ tag, c ≠ ' ' ∧ c ≠ '=' ∧ c ≠ '\r' ∧ c ≠ '\n') (htl : tag.length < 1024)
    (hv : a ≠ []) (hv' : ∀ c ∈ a, c ≠ ' ' ∧ c ≠ '=' ∧ c ≠ '\r' ∧ c ≠ '\n') (hvl : a.length < 1024)
    (hb : ∀ c ∈ b, c ≠ '\r' ∧ c ≠ '\n') :
    tagValueLine (tagLine tag (a ++ ' ' :: b)) = .ok (tag, a) := by
  unfold tagValueLine tagLine
  have hcut : cutAt isEol (tag ++ ' ' :: '=' :: ' ' :: (a ++ ' ' :: b) ++ ['\n']) =
      [] ++ (tag ++ ' ' :: ('=' :: ' ' :: (a ++ ' ' :: b))) := by
    rw [List.nil_append]
    apply cutAt_line
    · intro c hc
      simp only [List.mem_append, List.mem_cons] at hc
      rcases hc with hc | rfl | rfl | rfl | hc | rfl | hc
      · exact isEol_false (ht' c hc).2.2.1 (ht' c hc).2.2.2
      · decide
      · decide
      · decide
      · exact isEol_false (hv' c hc).2.2.1 (hv' c hc).2.2.2
      · decide
      · exact isEol_false (hb c hc).1 (hb c hc).2
    · decide
  rw [hcut, strtok_cons isSep [] tag _ (by simp) (fun c hc => isSep_false (ht' c hc).1 (ht' c hc).2.1) ht
    ' ' (by decide)]
  simp only []
  rw [if_neg (by omega)]
  have := strtok_cons isSep ['=', ' '] a b (by decide)
    (fun c hc => isSep_false (hv' c hc).1 (hv' c hc).2.1) hv ' ' (by decide)
  simp only [List.cons_append, List.nil_append] at this
  rw [this]
  simp only []
  rw [if_neg (by omega)]

/-- Printed numbers fit into the buffers. -/
def Short (c : Def) : Prop :=
  (fmtF c.originGeoX).length < 1024 ∧ (fmtF c.originGeoY).length < 1024 ∧
  (fmtF c.originMapX).length < 1024 ∧ (fmtF c.originMapY).length < 1024 ∧
  (fmtF c.tileSizeX).length < 1024 ∧ (fmtF c.tileSizeY).length < 1024

theorem short_of_finite (c : Def) (h : Finite c) : Short c := by
  obtain ⟨h1, h2, h3, h4, h5, h6⟩ := h
  refine ⟨?_, ?_, ?_, ?_, ?_, ?_⟩
  · have := fmtF_length _ h1; omega
  · have := fmtF_length _ h2; omega
  · have := fmtF_length _ h3; omega
  · have := fmtF_length _ h4; omega
  · have := fmtF_length _ h5; omega
  · have := fmtF_length _ h6; omega

theorem tag_ok {t : List Char} (h : t ∈ tags) :
    t ≠ [] ∧ (∀ c ∈ t, c ≠ ' ' ∧ c ≠ '=' ∧ c ≠ '\r' ∧ c ≠ '\n') ∧ t.length < 1024 := by
  have : ∀ t ∈ tags, t ≠ [] ∧ (∀ c ∈ t, c ≠ ' ' ∧ c ≠ '=' ∧ c ≠ '\r' ∧ c ≠ '\n') ∧ t.length < 20 := by
    decide +kernel
  obtain ⟨a, b, c⟩ := this t h
  exact ⟨a, b, by omega⟩

theorem tagLine_eq (tag val : List Char) :
    tagLine tag val = (tag ++ ' ' :: '=' :: ' ' :: val) ++ ['\n'] := by simp [tagLine]

/-- Reading the lines of a written definition: the projection line gives its first word
`p`, the other lines give their numbers. -/
theorem readTagvalue_defText (c : Def) (p : List Char)
    (hp : tagValueLine (tagLine "PROJECTION".toList c.projection) = .ok ("PROJECTION".toList, p))
    (hnl : '\n' ∉ c.projection) (hlen : c.projection.length < 1024) (hs : Short c) :
    readTagvalue (some (defText c)) = .ok
      [("PROJECTION".toList, p), ("ORIGIN_GEO_X".toList, fmtF c.originGeoX),
       ("ORIGIN_GEO_Y".toList, fmtF c.originGeoY), ("ORIGIN_MAP_X".toList, fmtF c.originMapX),
       ("ORIGIN_MAP_Y".toList, fmtF c.originMapY), ("TILE_SIZE_X".toList, fmtF c.tileSizeX),
       ("TILE_SIZE_Y".toList, fmtF c.tileSizeY)] := by
  have num : ∀ t ∈ tags, ∀ v : ℚ, (fmtF v).length < 1024 →
      tagValueLine (tagLine t (fmtF v)) = .ok (t, fmtF v) := by
    intro t ht v hv
    obtain ⟨a, b, d⟩ := tag_ok ht
    exact tagValueLine_tagLine t _ a b d (fmtF_ne_nil v) (fmtF_noSep v) hv
  obtain ⟨s1, s2, s3, s4, s5, s6⟩ := hs
  have n1 := num "ORIGIN_GEO_X".toList (by decide +kernel) c.originGeoX s1
  have n2 := num "ORIGIN_GEO_Y".toList (by decide +kernel) c.originGeoY s2
  have n3 := num "ORIGIN_MAP_X".toList (by decide +kernel) c.originMapX s3
  have n4 := num "ORIGIN_MAP_Y".toList (by decide +kernel) c.originMapY s4
  have n5 := num "TILE_SIZE_X".toList (by decide +kernel) c.tileSizeX s5
  have n6 := num "TILE_SIZE_Y".toList (by decide +kernel) c.tileSizeY s6
  have lineOk : ∀ t ∈ tags, ∀ v : List Char, '\n' ∉ v → v.length < 1024 →
      '\n' ∉ (t ++ ' ' :: '=' :: ' ' :: v) ∧ (t ++ ' ' :: '=' :: ' ' :: v).length + 1 < 65536 := by
    intro t ht v hv hl
    obtain ⟨_, b, d⟩ := tag_ok ht
    constructor
    · simp only [List.mem_append, List.mem_cons, not_or]
      exact ⟨fun h => (b _ h).2.2.2 rfl, by decide, by decide, by decide, hv⟩
    · simp only [List.length_append, List.length_cons]; omega
  have nnl : ∀ v : ℚ, '\n' ∉ fmtF v := fun v h => (fmtF_noSep v _ h).2.2.2 rfl
  have hlines : fgetsAll 65536 (defText c) =
      [tagLine "PROJECTION".toList c.projection, tagLine "ORIGIN_GEO_X".toList (fmtF c.originGeoX),
       tagLine "ORIGIN_GEO_Y".toList (fmtF c.originGeoY), tagLine "ORIGIN_MAP_X".toList (fmtF c.originMapX),
       tagLine "ORIGIN_MAP_Y".toList (fmtF c.originMapY), tagLine "TILE_SIZE_X".toList (fmtF c.tileSizeX),
       tagLine "TILE_SIZE_Y".toList (fmtF c.tileSizeY)] := by
    have := fgetsAll_lines 65536
      ["PROJECTION".toList ++ ' ' :: '=' :: ' ' :: c.projection,
       "ORIGIN_GEO_X".toList ++ ' ' :: '=' :: ' ' :: fmtF c.originGeoX,
       "ORIGIN_GEO_Y".toList ++ ' ' :: '=' :: ' ' :: fmtF c.originGeoY,
       "ORIGIN_MAP_X".toList ++ ' ' :: '=' :: ' ' :: fmtF c.originMapX,
       "ORIGIN_MAP_Y".toList ++ ' ' :: '=' :: ' ' :: fmtF c.originMapY,
       "TILE_SIZE_X".toList ++ ' ' :: '=' :: ' ' :: fmtF c.tileSizeX,
       "TILE_SIZE_Y".toList ++ ' ' :: '=' :: ' ' :: fmtF c.tileSizeY] (by
        intro l hl
        simp only [List.mem_cons, List.not_mem_nil, or_false] at hl
        rcases hl with rfl | rfl | rfl | rfl | rfl | rfl | rfl
        · exact lineOk _ (by decide +kernel) _ hnl hlen
        · exact lineOk _ (by decide +kernel) _ (nnl _) s1
        · exact lineOk _ (by decide +kernel) _ (nnl _) s2
        · exact lineOk _ (by decide +kernel) _ (nnl _) s3
        · exact lineOk _ (by decide +kernel) _ (nnl _) s4
        · exact lineOk _ (by decide +kernel) _ (nnl _) s5
        · exact lineOk _ (by decide +kernel) _ (nnl _) s6)
    simp only [List.flatMap_cons, List.flatMap_nil, List.map_cons, List.map_nil, ← tagLine_eq,
      List.append_nil] at this
    rw [← this]
    simp only [defText, List.append_assoc]
  unfold readTagvalue
  simp only [hlines, tagValueLines, hp, n1, n2, n3, n4, n5, n6]

theorem setTag_tags (rd : ℚ → ℚ) (c : Def) (v : List Char) :
    setTag rd c "PROJECTION".toList v = some { c with projection := v } ∧
    setTag rd c "ORIGIN_GEO_X".toList v = some { c with originGeoX := atof rd v } ∧
    setTag rd c "ORIGIN_GEO_Y".toList v = some { c with originGeoY := atof rd v } ∧
    setTag rd c "ORIGIN_MAP_X".toList v = some { c with originMapX := atof rd v } ∧
    setTag rd c "ORIGIN_MAP_Y".toList v = some { c with originMapY := atof rd v } ∧
    setTag rd c "TILE_SIZE_X".toList v = some { c with tileSizeX := atof rd v } ∧
    setTag rd c "TILE_SIZE_Y".toList v = some { c with tileSizeY := atof rd v } := by
  refine ⟨rfl, ?_, ?_, ?_, ?_, ?_, ?_⟩ <;>
    (unfold setTag; repeat rw [if_neg (by decide +kernel)]) <;> rw [if_pos rfl]

theorem readDef_defText (rd : ℚ → ℚ) (c : Def) (p : List Char)
    (hp : tagValueLine (tagLine "PROJECTION".toList c.projection) = .ok ("PROJECTION".toList, p))
    (hnl : '\n' ∉ c.projection) (hlen : c.projection.length < 1024) (hs : Short c) :
    readDef rd (some (defText c)) = .ok
      ⟨p, atof rd (fmtF c.originGeoX), atof rd (fmtF c.originGeoY), atof rd (fmtF c.originMapX),
        atof rd (fmtF c.originMapY), atof rd (fmtF c.tileSizeX), atof rd (fmtF c.tileSizeY)⟩ := by
  unfold readDef
  rw [readTagvalue_defText c p hp hnl hlen hs]
  simp only [parseDef, setTag_tags]
  rfl

/-- Reading back a written definition gives the same definition, if the projection text is
one word and the numbers have six decimals. Missing: projections that contain a blank
(`c19_projection_cut_violated`) and numbers with more decimals
(`c19_precision_violated`). -/
theorem c19_round_trip_partial (rd : ℚ → ℚ) (c : Def) (hp : OneWord c.projection)
    (hn : Numbers rd c) (hf : Finite c) : readDef rd (some (defText c)) = .ok c := by
  have hs := short_of_finite c hf
  obtain ⟨h1, h2, h3⟩ := hp
  obtain ⟨n1, n2, n3, n4, n5, n6⟩ := hn
  obtain ⟨a, b, d⟩ := tag_ok (t := "PROJECTION".toList) (by decide +kernel)
  rw [readDef_defText rd c c.projection (tagValueLine_tagLine _ _ a b d h1 h3 h2)
    (fun h => (h3 _ h).2.2.2 rfl) h2 hs]
  rw [atof_fmtF_sixDecimals rd _ n1, atof_fmtF_sixDecimals rd _ n2, atof_fmtF_sixDecimals rd _ n3,
    atof_fmtF_sixDecimals rd _ n4, atof_fmtF_sixDecimals rd _ n5, atof_fmtF_sixDecimals rd _ n6]

/-- The code disagrees with the property: a projection is cut at its first blank. -/
theorem c19_projection_cut_violated (rd : ℚ → ℚ) (c : Def) (a b : List Char)
    (hp : c.projection = a ++ ' ' :: b) (ha : OneWord a) (hb : ∀ d ∈ b, d ≠ '\r' ∧ d ≠ '\n')
    (hlen : c.projection.length < 1024) (hf : Finite c) :
    (∃ c', readDef rd (some (defText c)) = .ok c' ∧ c'.projection = a) ∧
    readDef rd (some (defText c)) ≠ .ok c := by
  have hs := short_of_finite c hf
  obtain ⟨h1, h2, h3⟩ := ha
  obtain ⟨t1, t2, t3⟩ := tag_ok (t := "PROJECTION".toList) (by decide +kernel)
  have key := readDef_defText rd c a (by
      rw [hp]; exact tagValueLine_tagLine_cut _ a b t1 t2 t3 h1 h3 h2 hb)
    (by
      rw [hp]; simp only [List.mem_append, List.mem_cons, not_or]
      exact ⟨fun h => (h3 _ h).2.2.2 rfl, by decide, fun h => (hb _ h).2 rfl⟩) hlen hs
  refine ⟨⟨_, key, rfl⟩, ?_⟩
  rw [key]
  intro h
  simp only [Res.ok.injEq] at h
  have := congrArg (fun c => c.projection.length) h
  simp [hp] at this

/-- The default projection system of the program (GLANCE7, glance7-ll.c:55-61) is affected:
this is the beginning of its text for Europe. -/
def glance7 : List Char :=
  "PROJCS[\"BU MEaSUREs Lambert Azimuthal Equal Area - EU - V01\",GEOGCS[\"GCS_WGS_1984\"]]".toList

example : ∃ a b, glance7 = a ++ ' ' :: b ∧ OneWord a ∧ (∀ d ∈ b, d ≠ '\r' ∧ d ≠ '\n') ∧
    glance7.length < 1024 :=
  ⟨"PROJCS[\"BU".toList,
   "MEaSUREs Lambert Azimuthal Equal Area - EU - V01\",GEOGCS[\"GCS_WGS_1984\"]]".toList,
   by decide +kernel, ⟨by decide +kernel, by decide +kernel, by decide +kernel⟩, by decide +kernel,
   by decide +kernel⟩

/-- The code disagrees with the property: two different definitions have the same file (only
six decimals are written). Both numbers are doubles. -/
theorem c19_precision_violated :
    ∃ c c' : Def, c ≠ c' ∧ defText c = defText c' ∧ OneWord c.projection ∧
      c.originGeoX = 9765625 / 1048576 ∧ c'.originGeoX = 19531251 / 2097152 := by
  refine ⟨⟨['E'], 9765625 / 1048576, 0, 0, 0, 30000, 30000⟩,
    ⟨['E'], 19531251 / 2097152, 0, 0, 0, 30000, 30000⟩, ?_, ?_, ?_, rfl, rfl⟩
  · intro h
    have := congrArg Def.originGeoX h
    norm_num at this
  · have : fmtF (9765625 / 1048576) = fmtF (19531251 / 2097152) := by
      have e1 : roundEven (|(9765625 / 1048576 : ℚ)| * 1000000) = 9313226 :=
        roundEven_of_close _ _ (by norm_num [abs_lt])
      have e2 : roundEven (|(19531251 / 2097152 : ℚ)| * 1000000) = 9313226 :=
        roundEven_of_close _ _ (by norm_num [abs_lt])
      unfold fmtF
      rw [e1, e2, if_neg (by norm_num), if_neg (by norm_num)]
    simp only [defText, this]
  · exact ⟨by decide, by decide, by decide⟩

/-- `setTag` knows exactly the seven tags. -/
theorem setTag_none (rd : ℚ → ℚ) (c : Def) (tag val : List Char) :
    setTag rd c tag val = none ↔ tag ∉ tags := by
  unfold setTag tags
  simp only [List.mem_cons, List.not_mem_nil, or_false, not_or]
  repeat' split
  all_goals first | (simp_all; done) | grind

theorem parseDef_spec (rd : ℚ → ℚ) (tvs : List (List Char × List Char)) (s : Def × Nat) :
    (∀ r, parseDef rd tvs s = some r → (∀ tv ∈ tvs, tv.1 ∈ tags) ∧ r.2 = s.2 + tvs.length) := by
  induction tvs generalizing s with
  | nil => intro r h; simp only [parseDef, Option.some.injEq] at h; subst h; simp
  | cons tv tvs ih =>
    intro r h
    rw [parseDef] at h
    cases hs : setTag rd s.1 tv.1 tv.2 with
    | none => rw [hs] at h; simp at h
    | some c =>
      rw [hs] at h
      obtain ⟨h1, h2⟩ := ih _ r h
      have : tv.1 ∈ tags := by
        by_contra hn
        rw [(setTag_none rd s.1 tv.1 tv.2).2 hn] at hs; simp at hs
      refine ⟨?_, by simp only [List.length_cons]; simp only at h2; omega⟩
      intro t ht
      rcases List.mem_cons.1 ht with rfl | ht
      · exact this
      · exact h1 t ht

/-- A file that consists of tag/value lines is rejected if a tag is unknown or if there are
not exactly seven lines. Missing from the full property: files with a line that has no value
are read by the old format instead (`c19_blank_line_violated`), and a duplicate can take
the place of a missing tag (`c19_missing_tag_violated`). -/
theorem c19_rejected_partial (rd : ℚ → ℚ) (text : List Char) (tvs : List (List Char × List Char))
    (h : readTagvalue (some text) = .ok tvs)
    (hbad : (∃ tv ∈ tvs, tv.1 ∉ tags) ∨ tvs.length ≠ 7) : readDef rd (some text) = .null := by
  unfold readDef
  rw [h]
  simp only []
  cases hp : parseDef rd tvs (initDef, 0) with
  | none => rfl
  | some r =>
    obtain ⟨h1, h2⟩ := parseDef_spec rd tvs (initDef, 0) r hp
    obtain ⟨c, n⟩ := r
    rcases hbad with ⟨tv, htv, hn⟩ | hlen
    · exact absurd (h1 tv htv) hn
    · simp only at h2
      simp only []
      rw [if_pos (by omega)]

/-- A definition file with `ORIGIN_GEO_X` twice and without `TILE_SIZE_Y`. -/
def dupFile : List Char :=
  "PROJECTION = EPSG:3035\nORIGIN_GEO_X = 1\nORIGIN_GEO_X = 1\nORIGIN_GEO_Y = 2\nORIGIN_MAP_X = 3\nORIGIN_MAP_Y = 4\nTILE_SIZE_X = 5\n".toList

/-- The code disagrees with the property: the file without `TILE_SIZE_Y` is accepted, with
a tile height of zero. -/
theorem c19_missing_tag_violated :
    readDef id (some dupFile) = .ok ⟨"EPSG:3035".toList, 1, 2, 3, 4, 5, 0⟩ := by decide +kernel

/-- A complete definition file, followed by a blank line. -/
def blankFile : List Char :=
  "PROJECTION = EPSG:3035\nORIGIN_GEO_X = 1\nORIGIN_GEO_Y = 2\nORIGIN_MAP_X = 3\nORIGIN_MAP_Y = 4\nTILE_SIZE_X = 5\nTILE_SIZE_Y = 5\n\n".toList

/-- The code disagrees with the property: the trailing blank line makes the program fall
back to the old format, in which the tags are taken for values; the file is accepted, with
all numbers zero. -/
theorem c19_blank_line_violated :
    readDef id (some blankFile) = .ok ⟨"PROJECTION = EPSG:3035".toList, 0, 0, 0, 0, 0, 0⟩ := by
  decide +kernel

theorem small {v : ℚ} (h : |v| < 2 ^ 64) : |v| < 2 ^ 1024 :=
  lt_of_lt_of_le h (pow_le_pow_right₀ (by norm_num) (by norm_num))

/-- Hypotheses of `c19_round_trip_partial` are met by a realistic definition. -/
example : ∃ c : Def, OneWord c.projection ∧ Numbers id c ∧ Finite c ∧ c.originGeoX = -25 ∧ c.originMapY = 14598355 / 10 :=
  ⟨⟨"EPSG:3035".toList, -25, 60, 2456026, 14598355 / 10, 30000, 30000⟩,
   ⟨by decide +kernel, by decide +kernel, by decide +kernel⟩,
   ⟨⟨-25000000, by norm_num, by norm_num⟩, ⟨60000000, by norm_num, by norm_num⟩,
    ⟨2456026000000, by norm_num, by norm_num⟩, ⟨1459835500000, by norm_num, by norm_num⟩,
    ⟨30000000000, by norm_num, by norm_num⟩, ⟨30000000000, by norm_num, by norm_num⟩⟩,
   ⟨small (by norm_num), small (by norm_num), small (by norm_num), small (by norm_num), small (by norm_num),
    small (by norm_num)⟩, rfl, rfl⟩

example : ∃ tvs, readTagvalue (some "PROJECTION = a\nFOO = b\n".toList) = .ok tvs ∧
    ∃ tv ∈ tvs, tv.1 ∉ tags :=
  ⟨[("PROJECTION".toList, ['a']), ("FOO".toList, ['b'])], by decide +kernel, by decide +kernel⟩

/-! ## C20 -/

section
variable {ι C : Type} [DecidableEq ι] (text : ι → C)

/-- Only owners release; a process outside keeps its state. -/
theorem exec_owner (f : Option (Option C)) (s : Shared ι C) (h : Exec text (start f) s) :
    ∀ i, Critical (s.pc i) → s.lock = some i := by
  induction h with
  | refl => intro i hi; rcases hi with hi | hi | hi <;> simp [start] at hi
  | @tail b c hab hbc ih =>
    have ih := ih
    intro j hj
    cases hbc with
    | exists_ i h hf =>
      by_cases hij : j = i
      · subst hij; simp [Critical] at hj
      · simp only [Function.update_of_ne hij] at hj; exact ih j hj
    | missing i h hf =>
      by_cases hij : j = i
      · subst hij; simp [Critical] at hj
      · simp only [Function.update_of_ne hij] at hj; exact ih j hj
    | acquire i h hl =>
      by_cases hij : j = i
      · subst hij; rfl
      · simp only [Function.update_of_ne hij] at hj
        have := ih j hj; rw [hl] at this; simp at this
    | timeout i h hl =>
      by_cases hij : j = i
      · subst hij; simp [Critical] at hj
      · simp only [Function.update_of_ne hij] at hj; exact ih j hj
    | open_ i h =>
      by_cases hij : j = i
      · subst hij; exact ih j (Or.inl h)
      · simp only [Function.update_of_ne hij] at hj; exact ih j hj
    | openFails i h =>
      by_cases hij : j = i
      · subst hij; simp [Critical] at hj
      · simp only [Function.update_of_ne hij] at hj; exact ih j hj
    | write i h =>
      by_cases hij : j = i
      · subst hij; exact ih j (Or.inr (Or.inl h))
      · simp only [Function.update_of_ne hij] at hj; exact ih j hj
    | unlock i h =>
      by_cases hij : j = i
      · subst hij; simp [Critical] at hj
      · simp only [Function.update_of_ne hij] at hj
        have h1 := ih j hj
        have h2 := ih i (Or.inr (Or.inr h))
        rw [h1] at h2; simp at h2; exact absurd h2 hij

/-- At most one process is between `lock_file` and `unlock_file`. -/
theorem c20_mutual_exclusion_partial (f : Option (Option C)) (s : Shared ι C) (h : Exec text (start f) s)
    (i j : ι) (hi : Critical (s.pc i)) (hj : Critical (s.pc j)) : i = j := by
  have h1 := exec_owner text f s h i hi
  have h2 := exec_owner text f s h j hj
  rw [h1] at h2; simpa using h2

/-- A definition that is in place before any of the processes starts is never touched. -/
theorem c20_existing_kept_partial (f : Option C) (s : Shared ι C) (h : Exec text (start (some f)) s) :
    s.file = some f := by
  have key : s.file = some f ∧ ∀ i, s.pc i = .check ∨ s.pc i = .success := by
    induction h with
    | refl => exact ⟨rfl, fun i => Or.inl rfl⟩
    | @tail b c hab hbc ih =>
      obtain ⟨ih1, ih2⟩ := ih
      cases hbc with
      | exists_ i h hf =>
        refine ⟨ih1, fun j => ?_⟩
        by_cases hij : j = i
        · subst hij; simp
        · simp only [Function.update_of_ne hij]; exact ih2 j
      | missing i h hf => rw [ih1] at hf; simp at hf
      | acquire i h hl => rcases ih2 i with h' | h' <;> rw [h] at h' <;> simp at h'
      | timeout i h hl => rcases ih2 i with h' | h' <;> rw [h] at h' <;> simp at h'
      | open_ i h => rcases ih2 i with h' | h' <;> rw [h] at h' <;> simp at h'
      | openFails i h => rcases ih2 i with h' | h' <;> rw [h] at h' <;> simp at h'
      | write i h => rcases ih2 i with h' | h' <;> rw [h] at h' <;> simp at h'
      | unlock i h => rcases ih2 i with h' | h' <;> rw [h] at h' <;> simp at h'
  exact key.1

/-- The file is never a mixture of two definitions: at any time it is absent, the complete
text of one process, or empty while the one process that holds the lock is writing. -/
theorem c20_complete_text_partial (s : Shared ι C) (h : Exec text (start none) s) :
    s.file = none ∨ (∃ i, s.file = some (some (text i))) ∨
      (s.file = some none ∧ ∃ i, s.pc i = .write ∧ s.lock = some i) := by
  have key : s.file = none ∨ (∃ i, s.file = some (some (text i))) ∨
      (s.file = some none ∧ ∃ i, s.pc i = .write) := by
    induction h with
    | refl => exact Or.inl rfl
    | @tail b c hab hbc ih =>
      have ih := ih
      have hown := exec_owner text none b hab
      cases hbc with
      | exists_ i h hf =>
        rcases ih with ih | ih | ⟨ih, j, hj⟩
        · exact Or.inl ih
        · exact Or.inr (Or.inl ih)
        · refine Or.inr (Or.inr ⟨ih, j, ?_⟩)
          have : j ≠ i := by rintro rfl; rw [h] at hj; simp at hj
          simp [Function.update_of_ne this, hj]
      | missing i h hf => exact Or.inl hf
      | acquire i h hl =>
        rcases ih with ih | ih | ⟨ih, j, hj⟩
        · exact Or.inl ih
        · exact Or.inr (Or.inl ih)
        · have := hown j (Or.inr (Or.inl hj)); rw [hl] at this; simp at this
      | timeout i h hl =>
        rcases ih with ih | ih | ⟨ih, j, hj⟩
        · exact Or.inl ih
        · exact Or.inr (Or.inl ih)
        · refine Or.inr (Or.inr ⟨ih, j, ?_⟩)
          have : j ≠ i := by rintro rfl; rw [h] at hj; simp at hj
          simp [Function.update_of_ne this, hj]
      | open_ i h => exact Or.inr (Or.inr ⟨rfl, i, by simp⟩)
      | openFails i h =>
        rcases ih with ih | ih | ⟨ih, j, hj⟩
        · exact Or.inl ih
        · exact Or.inr (Or.inl ih)
        · refine Or.inr (Or.inr ⟨ih, j, ?_⟩)
          have : j ≠ i := by rintro rfl; rw [h] at hj; simp at hj
          simp [Function.update_of_ne this, hj]
      | write i h => exact Or.inr (Or.inl ⟨i, rfl⟩)
      | unlock i h =>
        rcases ih with ih | ih | ⟨ih, j, hj⟩
        · exact Or.inl ih
        · exact Or.inr (Or.inl ih)
        · refine Or.inr (Or.inr ⟨ih, j, ?_⟩)
          have : j ≠ i := by rintro rfl; rw [h] at hj; simp at hj
          simp [Function.update_of_ne this, hj]
  rcases key with k | k | ⟨k, i, hi⟩
  · exact Or.inl k
  · exact Or.inr (Or.inl k)
  · exact Or.inr (Or.inr ⟨k, i, hi, exec_owner text none s h i (Or.inr (Or.inl hi))⟩)

/-- If all processes write the same definition, it is never replaced by a different one:
whenever nobody holds the lock, the file is absent or complete. Missing from the full
property: processes with different definitions (`c20_replaced_violated`). -/
theorem c20_same_definition_partial (t : C) (ht : ∀ i, text i = t) (s : Shared ι C)
    (h : Exec text (start none) s) (hl : s.lock = none) : s.file = none ∨ s.file = some (some t) := by
  rcases c20_complete_text_partial text s h with k | ⟨i, k⟩ | ⟨_, i, _, k⟩
  · exact Or.inl k
  · right; rw [k, ht]
  · rw [hl] at k; simp at k

end

/-- The code disagrees with the property: the existence of the file is tested before the
lock is taken, so a second process replaces the definition after the first one has
successfully finished. -/
theorem c20_replaced_violated {C : Type} (t u : C) :
    ∃ s s' : Shared Bool C, Exec (fun b => if b then t else u) (start none) s ∧
      s.pc true = .success ∧ s.lock = none ∧ s.file = some (some t) ∧
      Exec (fun b => if b then t else u) s s' ∧ s'.pc false = .success ∧ s'.file = some (some u) := by
  let text : Bool → C := fun b => if b then t else u
  let s1 : Shared Bool C := { file := none, lock := none, pc := Function.update (start (C := C) none).pc true .lock }
  let s2 : Shared Bool C := { s1 with pc := Function.update s1.pc false .lock }
  let s3 : Shared Bool C := { s2 with lock := some true, pc := Function.update s2.pc true .open }
  let s4 : Shared Bool C := { s3 with file := some none, pc := Function.update s3.pc true .write }
  let s5 : Shared Bool C := { s4 with file := some (some (text true)), pc := Function.update s4.pc true .unlock }
  let s6 : Shared Bool C := { s5 with lock := none, pc := Function.update s5.pc true .success }
  let s7 : Shared Bool C := { s6 with lock := some false, pc := Function.update s6.pc false .open }
  let s8 : Shared Bool C := { s7 with file := some none, pc := Function.update s7.pc false .write }
  let s9 : Shared Bool C := { s8 with file := some (some (text false)), pc := Function.update s8.pc false .unlock }
  let s10 : Shared Bool C := { s9 with lock := none, pc := Function.update s9.pc false .success }
  refine ⟨s6, s10, ?_, rfl, rfl, rfl, ?_, rfl, rfl⟩
  · exact ((((((Exec.refl _).tail (Step.missing _ true rfl rfl)).tail (Step.missing s1 false rfl rfl)).tail
      (Step.acquire s2 true rfl rfl)).tail (Step.open_ s3 true rfl)).tail (Step.write s4 true rfl)).tail
      (Step.unlock s5 true rfl)
  · exact ((((Exec.refl s6).tail (Step.acquire s6 false rfl rfl)).tail (Step.open_ s7 false rfl)).tail
      (Step.write s8 false rfl)).tail (Step.unlock s9 false rfl)

/-- The code disagrees with the property: if the file cannot be opened, the process returns
without releasing the lock, and nobody can ever release it. -/
theorem c20_lock_leak_violated {C : Type} (text : Bool → C) :
    ∃ s : Shared Bool C, Exec text (start none) s ∧ s.pc true = .failure ∧ s.lock = some true ∧
      ∀ s', Exec text s s' → s'.lock = some true := by
  let s1 : Shared Bool C := { file := none, lock := none, pc := Function.update (start (C := C) none).pc true .lock }
  let s2 : Shared Bool C := { s1 with lock := some true, pc := Function.update s1.pc true .open }
  let s3 : Shared Bool C := { s2 with pc := Function.update s2.pc true .failure }
  have hexec : Exec text (start none) s3 :=
    (((Exec.refl _).tail (Step.missing _ true rfl rfl)).tail (Step.acquire s1 true rfl rfl)).tail
      (Step.openFails s2 true rfl)
  refine ⟨s3, hexec, rfl, rfl, ?_⟩
  have trans : ∀ s', Exec text s3 s' → Exec text (start none) s' := by
    intro s' h
    induction h with
    | refl => exact hexec
    | tail _ h ih => exact ih.tail h
  intro s' h
  have key : s'.lock = some true ∧ s'.pc true = .failure := by
    induction h with
    | refl => exact ⟨rfl, rfl⟩
    | @tail b c hab hbc ih =>
      obtain ⟨ih1, ih2⟩ := ih
      have hown := exec_owner text none b (trans b hab)
      have hne : ∀ i (p : PC), b.pc i = p → p ≠ .failure → (true : Bool) ≠ i := by
        rintro i p h hp rfl; rw [ih2] at h; exact hp h.symm
      cases hbc with
      | exists_ i h hf => exact ⟨ih1, by simp [Function.update_of_ne (hne i _ h (by simp)), ih2]⟩
      | missing i h hf => exact ⟨ih1, by simp [Function.update_of_ne (hne i _ h (by simp)), ih2]⟩
      | acquire i h hl => rw [ih1] at hl; simp at hl
      | timeout i h hl => exact ⟨ih1, by simp [Function.update_of_ne (hne i _ h (by simp)), ih2]⟩
      | open_ i h => exact ⟨ih1, by simp [Function.update_of_ne (hne i _ h (by simp)), ih2]⟩
      | openFails i h => exact ⟨ih1, by simp [Function.update_of_ne (hne i _ h (by simp)), ih2]⟩
      | write i h => exact ⟨ih1, by simp [Function.update_of_ne (hne i _ h (by simp)), ih2]⟩
      | unlock i h =>
        have h2 := hown i (Or.inr (Or.inr h))
        rw [ih1] at h2
        exact absurd (Option.some.inj h2) (hne i _ h (by simp))
  exact key.1

end Verif.Cube
