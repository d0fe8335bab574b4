import Verif.Find.Props

/-!
C296: the granule, tile, images and elevation model of a scene.
-/

namespace Verif.Find

open Verif.Str

/-! ## The tile -/

/-- The base name without extension of a directory, with or without slashes at its end. -/
theorem base_ok (dir name : List Char) (k : Nat) (h : '/' ∉ name) (hn : nul ∉ name) (h0 : name ≠ [])
    (hl : name.length < 1024) :
    basenameWithoutExt (dir ++ '/' :: name ++ List.replicate k '/') 1024 =
      .ok (name.takeWhile (· ≠ '.'), dir ++ '/' :: name) := by
  unfold basenameWithoutExt
  rw [c33_basename (dir ++ '/' :: name) name k 1024 (Or.inl ⟨dir, rfl, h⟩) h0 hn hl]
  rfl

/-- The extension of a directory, with or without slashes at its end. -/
theorem ext_ok (dir name : List Char) (k : Nat) (h : '/' ∉ name) (hn : nul ∉ name) (h0 : name ≠ [])
    (hl : name.length < 1024) :
    extension (dir ++ '/' :: name ++ List.replicate k '/') 1024 =
      .ok (name.dropWhile (· ≠ '.'), dir ++ '/' :: name) := by
  unfold extension
  rw [c33_basename (dir ++ '/' :: name) name k 1024 (Or.inl ⟨dir, rfl, h⟩) h0 hn hl]
  simp only [Out.bind]
  cases hd : name.dropWhile (· ≠ '.') with
  | nil => rfl
  | cons c cs =>
    simp only
    have hs := List.dropWhile_suffix (l := name) (fun x => decide (x ≠ '.'))
    have hsub : ∀ x ∈ c :: cs, x ∈ name := fun x hx => hs.subset (hd ▸ hx)
    have hlen : (c :: cs).length ≤ name.length := hd ▸ hs.length_le
    rw [copyText_ok 1024 (c :: cs) (fun hx => hn (hsub _ hx)) (by omega)]

/-- C296: a directory that is not a .SAFE product is used as it is given, without slashes at its end. -/
theorem c296_enter (ls : List Char → Option (List (List Char))) (dir name : List Char) (k : Nat)
    (h : '/' ∉ name) (hn : nul ∉ name) (h0 : name ≠ []) (hl : name.length < 1024)
    (hx : name.dropWhile (· ≠ '.') ≠ ".SAFE".toList) :
    enter ls (dir ++ '/' :: name ++ List.replicate k '/') =
      .ok (some (dir ++ '/' :: name, name.takeWhile (· ≠ '.'))) := by
  unfold enter
  rw [ext_ok dir name k h hn h0 hl]
  simp only [Out.bind]
  rw [if_neg hx]
  have := base_ok dir name 0 h hn h0 hl
  rw [List.replicate_zero, List.append_nil] at this
  rw [this]

/-- C296: for a .SAFE product, the first entry of its folder GRANULE with L1C in its name is used. -/
theorem c296_safe (ls : List Char → Option (List (List Char))) (dir stem : List Char) (k : Nat)
    (names pre post : List (List Char)) (granule : List Char)
    (h : '/' ∉ stem) (hd : '.' ∉ stem) (hn : nul ∉ dir ++ stem)
    (hls : ls (dir ++ '/' :: stem ++ ".SAFE/GRANULE".toList) = some names) (e : names = pre ++ granule :: post)
    (hg : "L1C".toList <:+: granule) (hp : ∀ m ∈ pre, ¬ "L1C".toList <:+: m)
    (gs : '/' ∉ granule) (gn : nul ∉ granule)
    (hl : dir.length + stem.length + granule.length + 15 < 1024) :
    enter ls (dir ++ '/' :: stem ++ ".SAFE".toList ++ List.replicate k '/') =
      .ok (some (dir ++ '/' :: stem ++ ".SAFE/GRANULE/".toList ++ granule, granule.takeWhile (· ≠ '.'))) := by
  have e5 : ".SAFE".toList = ['.', 'S', 'A', 'F', 'E'] := by decide
  have e8 : "/GRANULE".toList = ['/', 'G', 'R', 'A', 'N', 'U', 'L', 'E'] := by decide
  have e13 : ".SAFE/GRANULE".toList = ".SAFE".toList ++ "/GRANULE".toList := by decide
  have e14 : ".SAFE/GRANULE/".toList = ".SAFE".toList ++ "/GRANULE".toList ++ ['/'] := by decide
  have hn1 : nul ∉ dir ∧ nul ∉ stem := by simpa [List.mem_append, not_or] using hn
  have g0 : granule ≠ [] := by
    rintro rfl
    have := hg.length_le
    revert this
    decide
  have hs1 : '/' ∉ stem ++ ".SAFE".toList := by
    rw [List.mem_append, not_or]; exact ⟨h, by decide⟩
  have hs2 : nul ∉ stem ++ ".SAFE".toList := by
    rw [List.mem_append, not_or]; exact ⟨hn1.2, by decide⟩
  have hlen : (stem ++ ".SAFE".toList).length < 1024 := by
    rw [List.length_append, e5]; simp only [List.length_cons, List.length_nil]; omega
  have hdw : (stem ++ ".SAFE".toList).dropWhile (· ≠ '.') = ".SAFE".toList := by
    rw [List.dropWhile_append_of_pos (by
      intro x hx
      simp only [ne_eq, decide_eq_true_eq]
      rintro rfl
      exact hd hx)]
    decide
  have path : dir ++ '/' :: stem ++ ".SAFE".toList = dir ++ '/' :: (stem ++ ".SAFE".toList) := by simp
  unfold enter
  rw [path, ext_ok dir (stem ++ ".SAFE".toList) k hs1 hs2 (by rw [e5]; simp) hlen]
  simp only [Out.bind]
  rw [if_pos hdw]
  have hpl : (dir ++ '/' :: (stem ++ ".SAFE".toList)).length = dir.length + stem.length + 6 := by
    rw [e5]; simp only [List.length_append, List.length_cons, List.length_nil]; omega
  have htake : "/GRANULE".toList.take (1024 - (dir ++ '/' :: (stem ++ ".SAFE".toList)).length - 1) = "/GRANULE".toList := by
    apply List.take_of_length_le
    rw [hpl, e8]
    simp only [List.length_cons, List.length_nil]
    omega
  rw [htake]
  have hdir : dir ++ '/' :: (stem ++ ".SAFE".toList) ++ "/GRANULE".toList = dir ++ '/' :: stem ++ ".SAFE/GRANULE".toList := by
    rw [e13]; simp
  rw [hdir, hls]
  have hdl : (dir ++ '/' :: stem ++ ".SAFE/GRANULE".toList).length = dir.length + stem.length + 14 := by
    rw [e13, e5, e8]; simp only [List.length_append, List.length_cons, List.length_nil]; omega
  rw [c294_found _ names pre post granule "L1C".toList none 1024 e ⟨hg, fun f hf => by cases hf⟩
    (fun m hm hc => hp m hm hc.1) (by rw [hdl]; omega)]
  dsimp only
  rw [if_pos rfl, copyText_ok 1024 _ (by
    simp only [List.mem_append, List.mem_cons, not_or]
    exact ⟨⟨⟨hn1.1, by decide, hn1.2⟩, by decide⟩, by decide, gn⟩) (by
    rw [List.length_append, List.length_cons, hdl]; omega)]
  simp only []
  have := base_ok (dir ++ '/' :: stem ++ ".SAFE/GRANULE".toList) granule 0 gs gn g0 (by omega)
  rw [List.replicate_zero, List.append_nil] at this
  rw [this, e14, e13]
  simp

/-- C296: without such an entry, the scene is refused. -/
theorem c296_empty (ls : List Char → Option (List (List Char))) (path d : List Char)
    (hx : extension path 1024 = .ok (".SAFE".toList, d))
    (hl : d.length + 8 < 1024)
    (h : ∀ names, ls (d ++ "/GRANULE".toList) = some names → ∀ m ∈ names, ¬ "L1C".toList <:+: m) :
    enter ls path = .ok none := by
  have e8 : "/GRANULE".toList.length = 8 := by decide
  unfold enter
  rw [hx]
  simp only [Out.bind]
  rw [if_pos True.intro, List.take_of_length_le (by rw [e8]; omega),
    c294_none _ _ _ _ _ (fun names hn m hm hc => h names hn m hm hc.1)]
  rfl

/-- C296: in the compact naming convention (`L1C_<tile>_…`, at most 50 characters) the tile is the text between the
first and the second underscore. -/
theorem c296_tile_compact (t rest : List Char) (ht : t.length = 6) (hr : rest.length ≤ 40) :
    tile ("L1C_".toList ++ t ++ rest) = some t := by
  have e : "L1C_".toList = ['L', '1', 'C', '_'] := by decide
  have hl : ("L1C_".toList ++ t ++ rest).length = 10 + rest.length := by
    rw [e]; simp only [List.length_append, List.length_cons, List.length_nil, ht]
  unfold tile
  rw [if_neg (by omega), if_neg (by omega), e]
  show some (List.take 6 (t ++ rest)) = some t
  rw [List.take_left' ht]

example : tile "L1C_T32UNB_A000734_20150813T101432".toList = some "T32UNB".toList :=
  c296_tile_compact "T32UNB".toList "_A000734_20150813T101432".toList rfl (by decide)

/-- C296: in the old naming convention the tile is the text behind mission, type, station, date and orbit, which
have 49 characters. -/
theorem c296_tile_old (front t rest : List Char) (hf : front.length = 49) (ht : t.length = 6) :
    tile (front ++ t ++ rest) = some t := by
  have hl : (front ++ t ++ rest).length = 55 + rest.length := by
    simp only [List.length_append, ht, hf]
  unfold tile
  rw [if_pos (by omega), List.append_assoc, List.drop_left' hf, List.take_left' ht]

example : tile "S2A_OPER_MSI_L1C_TL_SGS__20150813T171432_A000734_T32UNB_N01".toList = some "T32UNB".toList :=
  c296_tile_old "S2A_OPER_MSI_L1C_TL_SGS__20150813T171432_A000734_".toList "T32UNB".toList "_N01".toList rfl rfl

/-! ## Images -/

/-- Where a pattern with a single dot occurs in a name with a single dot. -/
theorem dot_split {a b c d : List Char} (hb : '.' ∉ b) (hd : '.' ∉ d) (ha : '.' ∉ a) (hc : '.' ∉ c)
    (h : a ++ '.' :: b = c ++ '.' :: d) : a = c ∧ b = d := by
  induction a generalizing c with
  | nil =>
    cases c with
    | nil => simpa using h
    | cons x c =>
      simp only [List.nil_append, List.cons_append, List.cons.injEq] at h
      exact absurd (h.1 ▸ List.mem_cons_self) hc
  | cons y a ih =>
    cases c with
    | nil =>
      simp only [List.nil_append, List.cons_append, List.cons.injEq] at h
      exact absurd (h.1 ▸ List.mem_cons_self) ha
    | cons x c =>
      simp only [List.cons_append, List.cons.injEq] at h
      have := ih (c := c) (fun hm => ha (List.mem_cons_of_mem _ hm)) (fun hm => hc (List.mem_cons_of_mem _ hm)) h.2
      exact ⟨by rw [h.1, this.1], this.2⟩

theorem two_count (a b : List Char) : List.count '.' (a ++ '.' :: b) = List.count '.' a + (List.count '.' b + 1) := by
  rw [List.count_append, List.count_cons_self]

/-- An image name contains the pattern of a band only if it is the image of this band. -/
theorem infix_image {stem t band : List Char} (hs : '.' ∉ stem) (ht : '.' ∉ t)
    (hb : '.' ∉ band) (hl : t.length = band.length + 1)
    (h : "_B".toList ++ band ++ ".jp2".toList <:+: stem ++ '_' :: t ++ ".jp2".toList) : t = 'B' :: band := by
  have e4 : ".jp2".toList = ['.', 'j', 'p', '2'] := by decide
  have e2 : "_B".toList = ['_', 'B'] := by decide
  obtain ⟨p, s, e⟩ := h
  rw [e4, e2] at e
  have e' : (p ++ '_' :: 'B' :: band) ++ '.' :: (['j', 'p', '2'] ++ s) = (stem ++ '_' :: t) ++ '.' :: ['j', 'p', '2'] := by
    simpa using e
  have hlen := congrArg List.length e'
  have hR : '.' ∉ stem ++ '_' :: t := by
    simp only [List.mem_append, List.mem_cons, not_or]
    exact ⟨hs, by decide, ht⟩
  have hp : '.' ∉ p ++ '_' :: 'B' :: band := by
    intro hm
    -- otherwise the right side has two dots
    have c := congrArg (List.count '.') e'
    rw [two_count, two_count, List.count_eq_zero.2 hR] at c
    have h1 : 0 < List.count '.' (p ++ '_' :: 'B' :: band) := List.count_pos_iff.2 hm
    have h2 : List.count '.' ['j', 'p', '2'] = 0 := by decide
    omega
  have hs' : '.' ∉ ['j', 'p', '2'] ++ s := by
    intro hm
    have c := congrArg (List.count '.') e'
    rw [two_count, two_count, List.count_eq_zero.2 hR, List.count_eq_zero.2 hp] at c
    have h1 : 0 < List.count '.' (['j', 'p', '2'] ++ s) := List.count_pos_iff.2 hm
    have h2 : List.count '.' ['j', 'p', '2'] = 0 := by decide
    omega
  have h := (dot_split hs' (by decide) hp hR e').1
  -- equal lengths of the ends
  have : ('_' :: 'B' :: band).length = ('_' :: t).length := by simp [hl]
  have h' := (List.append_inj' h this).2
  simp only [List.cons.injEq, true_and] at h'
  exact h'.symm

/-- Specification: the name of the image of a band. -/
def imageName (stem band : List Char) : List Char := stem ++ "_B".toList ++ band ++ ".jp2".toList

/-- C296: if the images in the granule have a common stem, an underscore, three characters (B01 … B12, B8A, TCI)
and the extension .jp2, and no other name in the folder contains .jp2, then each band is read from its own image,
in whatever order the folder is listed. -/
theorem c296_image_partial (ls : List Char → Option (List (List Char))) (dir stem band : List Char)
    (names : List (List Char)) (hls : ls (dir ++ "/IMG_DATA".toList) = some names)
    (hb : band.length = 2) (hbd : '.' ∉ band) (hs : '.' ∉ stem)
    (hn : ∀ n ∈ names, ".jp2".toList <:+: n →
      ∃ t, t.length = 3 ∧ '.' ∉ t ∧ n = stem ++ '_' :: t ++ ".jp2".toList)
    (hm : imageName stem band ∈ names) (hl : dir.length + stem.length + 18 < 1024) :
    image ls dir band = some (dir ++ "/IMG_DATA/".toList ++ imageName stem band) := by
  have e4 : ".jp2".toList = ['.', 'j', 'p', '2'] := by decide
  have e2 : "_B".toList = ['_', 'B'] := by decide
  have e9 : "/IMG_DATA".toList.length = 9 := by decide
  have e10 : "/IMG_DATA/".toList = "/IMG_DATA".toList ++ ['/'] := by decide
  obtain ⟨pre, post, e⟩ := List.append_of_mem hm
  -- the first match
  have hmatch : Match ("_B".toList ++ band ++ ".jp2".toList) none (imageName stem band) :=
    ⟨⟨stem, [], by simp [imageName]⟩, fun f hf => by cases hf⟩
  have honly : ∀ n ∈ names, Match ("_B".toList ++ band ++ ".jp2".toList) none n → n = imageName stem band := by
    intro n hn' hc
    have hj : ".jp2".toList <:+: n :=
      (List.IsSuffix.isInfix (List.suffix_append ("_B".toList ++ band) ".jp2".toList)).trans hc.1
    obtain ⟨t, t3, td, rfl⟩ := hn n hn' hj
    have := infix_image hs td hbd (by omega) hc.1
    subst this
    unfold imageName
    rw [e2]
    simp
  unfold image
  dsimp only
  rw [if_neg (by rw [List.length_append, e9]; omega), if_neg (by
    rw [e2, e4]; simp only [List.length_append, List.length_cons, List.length_nil]; omega), hls]
  cases hf : names.find? (fits ("_B".toList ++ band ++ ".jp2".toList) none) with
  | none => exact absurd (fits_iff.2 hmatch) (List.find?_eq_none.1 hf _ hm)
  | some k =>
    have hk := honly k (List.mem_of_find?_eq_some hf) (fits_iff.1 (List.find?_some hf))
    subst hk
    have hlen : (imageName stem band).length = stem.length + 8 := by
      unfold imageName
      rw [e2, e4]; simp only [List.length_append, List.length_cons, List.length_nil]; omega
    have hfound : find (dir ++ "/IMG_DATA".toList) (some names) ("_B".toList ++ band ++ ".jp2".toList) none 1024 =
        ⟨true, dir ++ "/IMG_DATA".toList ++ '/' :: imageName stem band, true⟩ := by
      unfold find
      dsimp only
      rw [hf]
      show assemble _ _ _ = _
      unfold assemble
      rw [if_neg (by rw [List.length_append, e9, hlen]; omega)]
      dsimp only
      rw [if_neg (by rw [List.length_append, List.length_append, List.length_cons, e9, hlen]; omega)]
    rw [hfound, if_pos rfl, e10]
    simp

/-- C296: all thirteen bands of a complete granule are found, each with its own image and in the order of the
bands; a granule in which the image of a band is missing is refused. -/
theorem c296_images_partial (ls : List Char → Option (List (List Char))) (dir stem : List Char)
    (names : List (List Char)) (hls : ls (dir ++ "/IMG_DATA".toList) = some names) (hs : '.' ∉ stem)
    (hn : ∀ n ∈ names, ".jp2".toList <:+: n →
      ∃ t, t.length = 3 ∧ '.' ∉ t ∧ n = stem ++ '_' :: t ++ ".jp2".toList)
    (hl : dir.length + stem.length + 18 < 1024) :
    ((∀ b ∈ ["01", "02", "03", "04", "05", "06", "07", "08", "8A", "09", "10", "11", "12"],
        imageName stem b.toList ∈ names) →
      images ls dir = some (["01", "02", "03", "04", "05", "06", "07", "08", "8A", "09", "10", "11", "12"].map
        fun b => dir ++ "/IMG_DATA/".toList ++ imageName stem b.toList)) ∧
    ((∃ b ∈ ["01", "02", "03", "04", "05", "06", "07", "08", "8A", "09", "10", "11", "12"],
        imageName stem b.toList ∉ names) → images ls dir = none) := by
  have e4 : ".jp2".toList = ['.', 'j', 'p', '2'] := by decide
  have e2 : "_B".toList = ['_', 'B'] := by decide
  have e9 : "/IMG_DATA".toList.length = 9 := by decide
  have two : ∀ b ∈ ["01", "02", "03", "04", "05", "06", "07", "08", "8A", "09", "10", "11", "12"],
      b.toList.length = 2 ∧ '.' ∉ b.toList := by decide
  constructor
  · intro hm
    have key : ∀ l : List String, (∀ b ∈ l, image ls dir b.toList = some (dir ++ "/IMG_DATA/".toList ++
        imageName stem b.toList)) → (l.map String.toList).mapM (image ls dir) =
          some (l.map fun b => dir ++ "/IMG_DATA/".toList ++ imageName stem b.toList) := by
      intro l
      induction l with
      | nil => intro _; rfl
      | cons b l ih =>
        intro h
        rw [List.map_cons, List.mapM_cons, h b List.mem_cons_self, ih (fun c hc => h c (List.mem_cons_of_mem _ hc))]
        rfl
    unfold images bands
    exact key _ fun b hb => c296_image_partial ls dir stem b.toList names hls (two b hb).1 (two b hb).2 hs hn (hm b hb) hl
  · rintro ⟨b, hb, hm⟩
    have hnone : image ls dir b.toList = none := by
      unfold image
      dsimp only
      rw [if_neg (by rw [List.length_append, e9]; omega), if_neg (by
        rw [e2, e4]; simp only [List.length_append, List.length_cons, List.length_nil, (two b hb).1]; omega), hls,
        c294_none]
      · rfl
      · intro ns e n hn' hc
        cases e
        have hj : ".jp2".toList <:+: n :=
          (List.IsSuffix.isInfix (List.suffix_append ("_B".toList ++ b.toList) ".jp2".toList)).trans hc.1
        obtain ⟨t, t3, td, rfl⟩ := hn n hn' hj
        have := infix_image hs td (two b hb).2 (by rw [(two b hb).1]; exact t3) hc.1
        subst this
        refine hm ?_
        unfold imageName
        rw [e2]
        simpa using hn'
    have key : ∀ l : List (List Char), (∃ x ∈ l, image ls dir x = none) → l.mapM (image ls dir) = none := by
      intro l
      induction l with
      | nil => rintro ⟨x, hx, -⟩; cases hx
      | cons x l ih =>
        rintro ⟨y, hy, hi⟩
        rw [List.mapM_cons]
        rcases List.mem_cons.1 hy with rfl | hy
        · rw [hi]; rfl
        · rw [ih ⟨y, hy, hi⟩]
          cases image ls dir x <;> rfl
    exact key _ ⟨b.toList, List.mem_map.2 ⟨b, hb, rfl⟩, hnone⟩

/-- C296, violated: a file with the name of an image and something behind it, such as the `.aux.xml` that other
programs write beside an image, is used instead of the image if the folder lists it first. -/
theorem c296_aux_violated (ls : List Char → Option (List (List Char))) (dir stem band tail : List Char)
    (names : List (List Char)) (hb : band.length = 2)
    (hls : ls (dir ++ "/IMG_DATA".toList) = some ((imageName stem band ++ tail) :: names))
    (hl : dir.length + stem.length + tail.length + 18 < 1024) :
    image ls dir band = some (dir ++ "/IMG_DATA/".toList ++ imageName stem band ++ tail) := by
  have e4 : ".jp2".toList = ['.', 'j', 'p', '2'] := by decide
  have e2 : "_B".toList = ['_', 'B'] := by decide
  have e9 : "/IMG_DATA".toList.length = 9 := by decide
  have e10 : "/IMG_DATA/".toList = "/IMG_DATA".toList ++ ['/'] := by decide
  have hlen : (imageName stem band).length = stem.length + 8 := by
    unfold imageName
    rw [e2, e4]; simp only [List.length_append, List.length_cons, List.length_nil]; omega
  unfold image
  dsimp only
  rw [if_neg (by rw [List.length_append, e9]; omega), if_neg (by
    rw [e2, e4]; simp only [List.length_append, List.length_cons, List.length_nil]; omega), hls,
    c294_found _ ((imageName stem band ++ tail) :: names) [] names (imageName stem band ++ tail) _ _ _ rfl
      ⟨⟨stem, tail, by simp [imageName]⟩, fun f hf => by cases hf⟩ (by simp) (by
        rw [List.length_append, List.length_append, e9, hlen]; omega), if_pos rfl, e10]
  simp

example : image (fun _ => some ["T_B02.jp2.aux.xml".toList, "T_B02.jp2".toList]) "g".toList "02".toList =
    some "g/IMG_DATA/T_B02.jp2.aux.xml".toList := by decide +kernel

example : images (fun _ => some (["T_TCI.jp2".toList, "T_B8A.jp2".toList, "T_B12.jp2".toList, "T_B11.jp2".toList,
    "T_B10.jp2".toList, "T_B09.jp2".toList, "T_B08.jp2".toList, "T_B07.jp2".toList, "T_B06.jp2".toList,
    "T_B05.jp2".toList, "T_B04.jp2".toList, "T_B03.jp2".toList, "T_B02.jp2".toList, "T_B01.jp2".toList])) "g".toList ≠
    none := by decide +kernel

/-! ## The elevation model -/

/-- C296: with a DEM database, the file of the scene's path and row or tile in it is used, and it exists; the scene
is refused if it does not exist or the name is too long. Without a database, the DEM is not changed. -/
theorem c296_dem (dem type id : List Char) (present : List Char → Bool) :
    demName false dem type id present = some dem ∧
    (∀ f, demName true dem type id present = some f ↔
      f = dem ++ '/' :: (type ++ '_' :: (id ++ ".vrt".toList)) ∧ present f = true ∧ f.length < 1024) := by
  refine ⟨rfl, fun f => ?_⟩
  have et : dem ++ '/' :: type ++ '_' :: id ++ ".vrt".toList = dem ++ '/' :: (type ++ '_' :: (id ++ ".vrt".toList)) := by
    simp
  unfold demName
  rw [if_pos rfl]
  dsimp only
  rw [et]
  generalize dem ++ '/' :: (type ++ '_' :: (id ++ ".vrt".toList)) = text
  by_cases h1 : text.length ≥ 1024
  · rw [if_pos h1]
    constructor
    · intro h; cases h
    · rintro ⟨rfl, -, h⟩; omega
  · rw [if_neg h1]
    by_cases h2 : present text = true
    · rw [if_pos h2]
      constructor
      · intro h; cases h; exact ⟨rfl, h2, by omega⟩
      · rintro ⟨rfl, -⟩; rfl
    · rw [if_neg h2]
      constructor
      · intro h; cases h
      · rintro ⟨rfl, h, -⟩; exact absurd h h2

example : demName true "/dem".toList "MGRS".toList "T32UNB".toList (fun _ => true) =
    some "/dem/MGRS_T32UNB.vrt".toList := by decide +kernel

example : enter (fun _ => some [".".toList, "L1C_T32UNB_A000734".toList]) "/a/S2A_MSIL1C.SAFE/".toList =
    .ok (some ("/a/S2A_MSIL1C.SAFE/GRANULE/L1C_T32UNB_A000734".toList, "L1C_T32UNB_A000734".toList)) :=
  c296_safe (fun _ => some [".".toList, "L1C_T32UNB_A000734".toList]) "/a".toList "S2A_MSIL1C".toList 1
    [".".toList, "L1C_T32UNB_A000734".toList] [".".toList] [] "L1C_T32UNB_A000734".toList
    (by decide) (by decide) (by decide) rfl rfl ⟨[], "_T32UNB_A000734".toList, by decide⟩
    (by
      intro m hm hc
      rw [List.mem_singleton] at hm
      subst hm
      have := strstr_isSome.2 hc
      revert this
      decide) (by decide) (by decide) (by decide)

end Verif.Find
