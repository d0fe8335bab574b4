import Verif.Meta.Bands

/-!
# C183, C184: calibration coefficients, and incomplete metadata
-/

namespace Verif.Meta

open Verif.Libc Verif.Str Verif.Meta.Spec

/-- Number of a quantity in parse_metadata_band. -/
def code : Quantity → Nat
  | .lmax => 1 | .lmin => 2 | .qmax => 3 | .qmin => 4 | .rmul => 5 | .radd => 6 | .k1 => 7 | .k2 => 8

/-- The value stored for a quantity. -/
def Cal.value (c : Cal) (q : Quantity) : ℚ := c.coef (code q)

def quantities : List Quantity := [.lmax, .lmin, .qmax, .qmin, .rmul, .radd, .k1, .k2]

theorem mem_quantities (q : Quantity) : q ∈ quantities := by cases q <;> decide

def lids : List ℕ := [4, 5, 7, 8, 9]

theorem table_bands : ∀ lid ∈ lids, bandTable (lid : ℤ) = bands lid := by decide +kernel

theorem table_tags : ∀ lid ∈ lids, ∀ b ∈ bands lid, ∀ q ∈ quantities,
    (tags lid b.1 q).map String.toList = bandTags (lid : ℤ) b.1 (code q) := by decide +kernel

theorem table_file : ∀ lid ∈ lids, ∀ b ∈ bands lid,
    (fileTags lid b.1).map String.toList = bandTags (lid : ℤ) b.1 0 := by decide +kernel

theorem table_kind : ∀ lid ∈ lids, ∀ b ∈ bands lid, ∀ q ∈ quantities,
    ∀ tag ∈ bandTags (lid : ℤ) b.1 (code q), kind tag = .coefs (code q) := by decide +kernel

theorem table_kind_file : ∀ lid ∈ lids, ∀ b ∈ bands lid,
    ∀ tag ∈ bandTags (lid : ℤ) b.1 0, kind tag = .file := by decide +kernel

theorem kind_file {t : List Char} (h : kind t = .file) : ch "FILE_NAME" <:+: t := by
  unfold kind at h
  replace h := peel h (by decide)
  refine peel_self h ?_
  clear h
  intro h
  iterate 19 replace h := peel h (by decide)
  exact absurd h (by decide)

/-! ## The satellite -/

/-- The state after the line with the satellite. -/
def craftState (st : St) (lid : ℕ) : St :=
  { st with
    craft := true
    lid := lid
    dtype := if 8 ≤ (lid : ℤ) then 16 else 8
    sat := if 8 ≤ (lid : ℤ) then 65535 else 255
    cals := (bands lid).map fun b => { band := b.1, domain := b.2 } }

theorem atoi_one : ∀ lid ∈ lids, atoi [Char.ofNat (48 + lid)] = (lid : ℤ) := by decide +kernel

theorem lineEff_craft (num : List Char → ℚ) (d : List Char) (st : St) (n lid : ℕ) (w : List Char)
    (hl : lid ∈ lids) :
    lineEff num d st (.entry n (ch "SPACECRAFT_ID") (w ++ [Char.ofNat (48 + lid)]) true)
      = .ok (craftState st lid) := by
  have hk : kind (ch "SPACECRAFT_ID") = .craft := by decide +kernel
  have hd : (w ++ [Char.ofNat (48 + lid)]).drop ((w ++ [Char.ofNat (48 + lid)]).length - 1)
      = [Char.ofNat (48 + lid)] := by
    simp
  have hc : setCraft st (w ++ [Char.ofNat (48 + lid)]) = .ok (craftState st lid) := by
    unfold setCraft
    rw [hd, atoi_one lid hl, if_pos]
    · simp only [table_bands lid hl, craftState]
    · clear hd
      revert lid
      decide
  simp only [lineEff, entryEff, handle, hk, seen, if_true, need]
  rw [hc]
  rfl

/-- The file of an image: the line with the satellite stands between other lines. -/
def imageLines (pre post : List Line) (n lid : ℕ) (w : List Char) : List Line :=
  pre ++ .entry n "SPACECRAFT_ID".toList (w ++ [Char.ofNat (48 + lid)]) true :: post

theorem parse_steps {num : List Char → ℚ} {d : List Char} {maxTier : ℤ} {pre post : List Line}
    {tail : Option (List Char)} {n lid : ℕ} {w : List Char} {st : St} (hl : lid ∈ lids)
    (hg : ∀ l ∈ imageLines pre post n lid w, Good l)
    (h : parseLandsat num d maxTier (fileText (imageLines pre post n lid w) tail) = .ok st) :
    ∃ st1 st2, run num d {} pre = .ok st1 ∧ run num d (craftState st1 lid) post = .ok st2 ∧
      st2.craft = true ∧ check maxTier { st2 with cals := st2.cals.map (fillThermal num st2.lid) } = .ok st := by
  unfold parseLandsat at h
  rw [readLines_file num d {} _ tail hg] at h
  obtain ⟨st2, h1, h2⟩ := bind_ok h
  unfold imageLines at h1
  rw [run_append] at h1
  obtain ⟨st1, h3, h4⟩ := bind_ok h1
  rw [run, lineEff_craft num d st1 n lid w hl] at h4
  split at h2
  · cases h2
  · rename_i hc
    refine ⟨st1, st2, h3, h4, by simpa using hc, h2⟩

theorem check_ok {maxTier : ℤ} {a st : St} (h : check maxTier a = .ok st) :
    st = a ∧ a.tier ≤ maxTier ∧ ∀ cal ∈ a.cals, bandOk cal = true := by
  unfold check at h
  split at h
  · cases h
  · split at h
    · cases h
    · split at h
      · cases h; exact ⟨rfl, by omega, by assumption⟩
      · cases h

/-! ## C183 -/

theorem applies_of_needed {c : Cal} {q : Quantity} (h : q ∈ needed c.domain) :
    applies (code q) c = true := by
  unfold needed at h
  unfold applies
  by_cases hd : c.domain = "TEMP"
  · rw [if_pos hd] at h
    simp only [List.mem_cons, List.not_mem_nil, or_false] at h
    rcases h with rfl | rfl | rfl | rfl | rfl | rfl <;> simp [code, hd]
  · rw [if_neg hd] at h
    simp only [List.mem_cons, List.not_mem_nil, or_false] at h
    rcases h with rfl | rfl | rfl | rfl | rfl | rfl <;> simp [code, hd]

/-- The bands, as read by the program, are those of the file. -/
theorem read_bands {num : List Char → ℚ} {d : List Char} {st1 st2 : St} {post : List Line} {lid : ℕ}
    (hl : lid ∈ lids) (hg : ∀ l ∈ post, Good l) (hc : ∀ l ∈ post, ¬ hasTag ["SPACECRAFT_ID"] l)
    (hnum : ∀ v, num (v ++ ['\n']) = num v)
    (hv : ∀ n t v q, Line.entry n t v q ∈ post → num v ≠ -32768)
    (hq : ∀ n t v q, Line.entry n t v q ∈ post → "FILE_NAME".toList <:+: t → q = true)
    (h : run num d (craftState st1 lid) post = .ok st2) :
    st2.lid = lid ∧ ∃ f : String × String → Cal, st2.cals = (bands lid).map f ∧
      ∀ b ∈ bands lid, (f b).band = b.1 ∧ (f b).domain = b.2 ∧
        (f b).fname = (firstValue (fileTags lid b.1) post).map (fun v => d ++ '/' :: v) ∧
        ∀ q ∈ needed b.2, (f b).coef (code q) = ((firstValue (tags lid b.1 q) post).map num).getD fill := by
  obtain ⟨h1, h2, -, -, -⟩ := run_cals post hc hg h
  refine ⟨h2, fun b => post.foldl (fun c l => lineCal num d (craftState st1 lid).lid l c)
    { band := b.1, domain := b.2 }, ?_, ?_⟩
  · rw [h1]
    simp only [craftState, List.map_map]
    rfl
  · intro b hb
    have hlid : (craftState st1 lid).lid = (lid : ℤ) := rfl
    rw [hlid]
    obtain ⟨e1, e2⟩ := foldl_band num d lid post { band := b.1, domain := b.2 }
    refine ⟨e1, e2, ?_, ?_⟩
    · rw [foldl_fname num d lid post { band := b.1, domain := b.2 } (fileTags lid b.1)
        (table_kind_file lid hl b hb) ?_ ?_]
      · rfl
      · intro t
        show t ∈ bandTags (lid : ℤ) b.1 0 ↔ _
        rw [← table_file lid hl b hb, List.mem_map]
        constructor
        · rintro ⟨k, hk, rfl⟩; exact ⟨k, hk, rfl⟩
        · rintro ⟨k, hk, rfl⟩; exact ⟨k, hk, rfl⟩
      · intro n t v q hm hk
        exact hq n t v q hm (kind_file hk)
    · intro q hqn
      rw [foldl_coef num d lid post { band := b.1, domain := b.2 } (code q)
        (by cases q <;> decide) (applies_of_needed hqn) (tags lid b.1 q)
        (table_kind lid hl b hb q (mem_quantities q)) ?_ ?_]
      · rw [if_pos rfl]
      · intro t
        show t ∈ bandTags (lid : ℤ) b.1 (code q) ↔ _
        rw [← table_tags lid hl b hb q (mem_quantities q), List.mem_map]
        constructor
        · rintro ⟨k, hk, rfl⟩; exact ⟨k, hk, rfl⟩
        · rintro ⟨k, hk, rfl⟩; exact ⟨k, hk, rfl⟩
      · intro n t v q' hm
        refine ⟨?_, hv n t v q' hm⟩
        unfold seen
        cases q'
        · exact hnum v
        · rfl

theorem defaults_known (num : List Char → ℚ) : ∀ lid ∈ lids, ∀ q ∈ quantities,
    defaults num (lid : ℤ) (code q) = ((known lid q).map fun s => num s.toList).getD fill := by
  intro lid hl q hq
  simp only [lids, List.mem_cons, List.not_mem_nil, or_false] at hl
  rcases hl with rfl | rfl | rfl | rfl | rfl <;> cases q <;> simp [defaults, known, code, ch]

theorem fillThermal_coef (num : List Char → ℚ) (lid : ℕ) (hl : lid ∈ lids) (c : Cal) (q : Quantity)
    (hq : q ∈ needed c.domain) : (fillThermal num lid c).coef (code q)
      = if c.coef (code q) = fill then ((known lid q).map fun s => num s.toList).getD fill
        else c.coef (code q) := by
  have hd := defaults_known num lid hl q (mem_quantities q)
  unfold fillThermal
  by_cases ht : c.domain = "TEMP"
  · rw [if_pos ht]
    simp only
    by_cases hf : c.coef (code q) = fill
    · by_cases h78 : code q = 7 ∨ code q = 8
      · rw [if_pos ⟨h78, hf⟩, if_pos hf, hd]
      · rw [if_neg (fun h => h78 h.1), if_pos hf, hf]
        have : known lid q = none := by
          cases q <;> first | rfl | (simp [code] at h78)
        rw [this]
        rfl
    · rw [if_neg (fun h => hf h.2), if_neg hf]
  · rw [if_neg ht]
    split_ifs with hf
    · rw [hf]
      have : known lid q = none := by
        unfold needed at hq
        rw [if_neg ht] at hq
        simp only [List.mem_cons, List.not_mem_nil, or_false] at hq
        rcases hq with rfl | rfl | rfl | rfl | rfl | rfl <;> rfl
      rw [this]
      rfl
    · rfl

theorem fillThermal_rest (num : List Char → ℚ) (lid : ℤ) (c : Cal) :
    (fillThermal num lid c).band = c.band ∧ (fillThermal num lid c).domain = c.domain ∧
      (fillThermal num lid c).fname = c.fname := by
  unfold fillThermal
  split_ifs <;> exact ⟨rfl, rfl, rfl⟩

/-- The calibration of an accepted image. -/
theorem calibration {num : List Char → ℚ} {d : List Char} {maxTier : ℤ} {pre post : List Line}
    {tail : Option (List Char)} {n lid : ℕ} {w : List Char} {st : St} (hl : lid ∈ lids)
    (hg : ∀ l ∈ imageLines pre post n lid w, Good l)
    (hc : ∀ l ∈ post, ¬ hasTag ["SPACECRAFT_ID"] l)
    (hnum : ∀ v, num (v ++ ['\n']) = num v)
    (hv : ∀ n t v q, Line.entry n t v q ∈ post → num v ≠ -32768)
    (hq : ∀ n t v q, Line.entry n t v q ∈ post → "FILE_NAME".toList <:+: t → q = true)
    (h : parseLandsat num d maxTier (fileText (imageLines pre post n lid w) tail) = .ok st) :
    st.tier ≤ maxTier ∧ st.lid = lid ∧
    ∃ f : String × String → Cal, st.cals = (bands lid).map f ∧
      ∀ b ∈ bands lid, bandOk (f b) = true ∧ (f b).band = b.1 ∧ (f b).domain = b.2 ∧
        (f b).fname = (firstValue (fileTags lid b.1) post).map (fun v => d ++ '/' :: v) ∧
        ∀ q ∈ needed b.2, (f b).coef (code q) = match firstValue (tags lid b.1 q) post with
          | some v => num v
          | none => ((known lid q).map fun s => num s.toList).getD fill := by
  obtain ⟨st1, st2, h1, h2, -, h4⟩ := parse_steps hl hg h
  have hgp : ∀ l ∈ post, Good l := fun l hl' => hg l (by simp [imageLines, hl'])
  obtain ⟨e1, f, e2, e3⟩ := read_bands hl hgp hc hnum hv hq h2
  obtain ⟨c1, c2, c3⟩ := check_ok h4
  subst c1
  refine ⟨c2, e1, fun b => fillThermal num lid (f b), ?_, ?_⟩
  · simp only [e1, e2, List.map_map]
    rfl
  · intro b hb
    obtain ⟨b1, b2, b3, b4⟩ := e3 b hb
    obtain ⟨r1, r2, r3⟩ := fillThermal_rest num lid (f b)
    refine ⟨?_, r1.trans b1, r2.trans b2, r3.trans b3, ?_⟩
    · apply c3
      simp only [e1, e2, List.map_map, List.mem_map, Function.comp]
      exact ⟨b, hb, rfl⟩
    · intro q hqn
      rw [fillThermal_coef num lid hl (f b) q (by rw [b2]; exact hqn), b4 q hqn]
      cases hf : firstValue (tags lid b.1 q) post with
      | none => simp
      | some v =>
        have : num v ≠ fill := by
          have : ∀ ls : List Line, firstValue (tags lid b.1 q) ls = some v →
              ∃ n t q', Line.entry n t v q' ∈ ls := by
            intro ls
            induction ls with
            | nil => intro h; cases h
            | cons l ls ih =>
              intro h
              cases l with
              | entry n t v' q' =>
                unfold firstValue at h
                split at h
                · cases h; exact ⟨n, t, q', by simp⟩
                · obtain ⟨a, b, c, hm⟩ := ih h
                  exact ⟨a, b, c, by simp [hm]⟩
              | date n t y m dd => obtain ⟨a, b, c, hm⟩ := ih h; exact ⟨a, b, c, by simp [hm]⟩
              | clock n t x y z => obtain ⟨a, b, c, hm⟩ := ih h; exact ⟨a, b, c, by simp [hm]⟩
              | other x => obtain ⟨a, b, c, hm⟩ := ih h; exact ⟨a, b, c, by simp [hm]⟩
          obtain ⟨a, b, c, hm⟩ := this post hf
          exact hv a b v c hm
        simp [this]

/-- C183: the calibration of a Landsat image is the one in its metadata file. For every file
in which the satellite is named once, in whatever order and among whatever other lines the
values stand after it, and with or without the end mark: the bands of an accepted image are
those of the sensor; the file name and the coefficients of a band are those of the first line
with the band's tag (older or newer form), or a known thermal constant of the satellite if
there is no such line. Numbers are what libc makes of the text (`num`), which is assumed to
ignore the end of the line. -/
theorem c183_calibration (num : List Char → ℚ) (hnum : ∀ v, num (v ++ ['\n']) = num v)
    (d : List Char) (maxTier : ℤ) (pre post : List Line) (tail : Option (List Char))
    (n lid : ℕ) (hl : lid ∈ [4, 5, 7, 8, 9]) (w : List Char) (st : St)
    (hg : ∀ l ∈ pre ++ .entry n "SPACECRAFT_ID".toList (w ++ [Char.ofNat (48 + lid)]) true :: post, Good l)
    (hc : ∀ l ∈ post, ¬ hasTag ["SPACECRAFT_ID"] l)
    (hv : ∀ n t v q, Line.entry n t v q ∈ post → num v ≠ -32768)
    (hq : ∀ n t v q, Line.entry n t v q ∈ post → "FILE_NAME".toList <:+: t → q = true)
    (h : parseLandsat num d maxTier (fileText
      (pre ++ .entry n "SPACECRAFT_ID".toList (w ++ [Char.ofNat (48 + lid)]) true :: post) tail) = .ok st) :
    st.lid = lid ∧ st.cals.map (fun c => (c.band, c.domain)) = bands lid ∧
    ∀ c ∈ st.cals, c.fname = (firstValue (fileTags lid c.band) post).map (fun v => d ++ '/' :: v) ∧
      ∀ q ∈ needed c.domain, c.value q = match firstValue (tags lid c.band q) post with
        | some v => num v
        | none => ((known lid q).map fun s => num s.toList).getD (-32768) := by
  obtain ⟨-, h2, f, h3, h4⟩ := calibration hl hg hc hnum hv hq h
  refine ⟨h2, ?_, ?_⟩
  · rw [h3, List.map_map]
    conv_rhs => rw [← List.map_id (bands lid)]
    apply List.map_congr_left
    intro b hb
    obtain ⟨-, b1, b2, -⟩ := h4 b hb
    simp [b1, b2]
  · intro c hcm
    rw [h3, List.mem_map] at hcm
    obtain ⟨b, hb, rfl⟩ := hcm
    obtain ⟨-, b1, b2, b3, b4⟩ := h4 b hb
    refine ⟨by rw [b1]; exact b3, ?_⟩
    intro q hqn
    rw [b1]
    exact b4 q (by rw [← b2]; exact hqn)

/-! ## C184 -/

/-- C184, partial: an image is accepted only if the metadata have, for every band, a file
name and all coefficients the band needs other than the minimum radiance. Missing: the
minimum radiance. -/
theorem c184_refused_partial (num : List Char → ℚ) (hnum : ∀ v, num (v ++ ['\n']) = num v)
    (d : List Char) (maxTier : ℤ) (pre post : List Line) (tail : Option (List Char))
    (n lid : ℕ) (hl : lid ∈ [4, 5, 7, 8, 9]) (w : List Char) (st : St)
    (hg : ∀ l ∈ pre ++ .entry n "SPACECRAFT_ID".toList (w ++ [Char.ofNat (48 + lid)]) true :: post, Good l)
    (hc : ∀ l ∈ post, ¬ hasTag ["SPACECRAFT_ID"] l)
    (hv : ∀ n t v q, Line.entry n t v q ∈ post → num v ≠ -32768)
    (hq : ∀ n t v q, Line.entry n t v q ∈ post → "FILE_NAME".toList <:+: t → q = true)
    (h : parseLandsat num d maxTier (fileText
      (pre ++ .entry n "SPACECRAFT_ID".toList (w ++ [Char.ofNat (48 + lid)]) true :: post) tail) = .ok st) :
    ∀ b ∈ bands lid, firstValue (fileTags lid b.1) post ≠ none ∧
      ∀ q ∈ needed b.2, q ≠ .lmin →
        firstValue (tags lid b.1 q) post ≠ none ∨ known lid q ≠ none := by
  obtain ⟨-, h2, f, h3, h4⟩ := calibration hl hg hc hnum hv hq h
  intro b hb
  obtain ⟨b0, b1, b2, b3, b4⟩ := h4 b hb
  simp only [bandOk, decide_eq_true_eq] at b0
  obtain ⟨o0, o1, -, o3, o4, o5, o6, o7⟩ := b0
  rw [b2] at o5 o6 o7
  refine ⟨fun e => o0 (by rw [b3, e]; rfl), ?_⟩
  intro q hqn hne
  by_contra hcon
  rw [not_or, not_ne_iff, not_ne_iff] at hcon
  have := b4 q hqn
  rw [hcon.1, hcon.2] at this
  simp only [Option.map_none, Option.getD_none] at this
  unfold needed at hqn
  by_cases ht : b.2 = "TEMP"
  · rw [if_pos ht] at hqn
    simp only [List.mem_cons, List.not_mem_nil, or_false] at hqn
    rcases hqn with rfl | rfl | rfl | rfl | rfl | rfl
    · exact o1 this
    · exact hne rfl
    · exact o3 this
    · exact o4 this
    · exact (o7 ht).1 this
    · exact (o7 ht).2 this
  · rw [if_neg ht] at hqn
    simp only [List.mem_cons, List.not_mem_nil, or_false] at hqn
    rcases hqn with rfl | rfl | rfl | rfl | rfl | rfl
    · exact o1 this
    · exact hne rfl
    · exact o3 this
    · exact o4 this
    · exact o5 ht this
    · exact o6 ht this

end Verif.Meta
