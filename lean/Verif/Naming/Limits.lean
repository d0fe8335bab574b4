import Verif.Naming.Props

/-!
# Where two products share a file (C264), folders (C265), single bands (C266) -/

namespace Verif.Naming

theorem product_nodup (r : Run) (ps : List Product) (h : (written r ps).Nodup) (p : Product) (hp : p ∈ ps) :
    (files r p).Nodup := (List.nodup_flatMap.1 h).1 p hp

theorem bands_nodup (r : Run) (p : Product) (he : p.explode = true) (h : (files r p).Nodup) : p.bands.Nodup := by
  unfold files at h
  rw [if_pos he] at h
  exact List.Nodup.of_map _ h

theorem twice_not_nodup {α : Type} (l : List α) (i j : Nat) (a : α) (hij : i < j) (hi : l[i]? = some a) (hj : l[j]? = some a) :
    ¬ l.Nodup := by
  intro h
  obtain ⟨h1, h2⟩ := List.getElem?_eq_some_iff.1 hi
  obtain ⟨h3, h4⟩ := List.getElem?_eq_some_iff.1 hj
  have := (List.Nodup.getElem_inj_iff h (hi := h1) (hj := h3)).1 (by rw [h2, h4])
  omega

/-- C264, violated: the class probabilities of all classes of a model set get the same name, that of the first model. If
they are written to single files, they are written to the same file. -/
theorem c264_classes_violated (r : Run) (name : List Char) (out : Bool × Bool × Bool × Bool × Bool)
    (sets : List (List Char × Nat)) (s : List Char × Nat) (he : r.explode = true) (ho : out.2.2.2.1 = true) (hs : s ∈ sets)
    (h2 : 2 ≤ s.2) : ¬ (written r (ml r name out sets)).Nodup := by
  intro h
  have hp : (⟨"RFP".toList, true, name ++ "_HL_ML_".toList ++ "RFP".toList, r.explode,
      sets.flatMap fun s => List.replicate s.2 (base s.1)⟩ : Product) ∈ ml r name out sets := by
    unfold ml enabled
    refine List.mem_map.2 ⟨(out.2.2.2.1, _), List.mem_filter.2 ⟨?_, ho⟩, rfl⟩
    simp
  have k := bands_nodup r _ he (product_nodup r _ h _ hp)
  have := (List.nodup_flatMap.1 k).1 s hs
  rw [List.nodup_replicate] at this
  omega

/-- C264, violated: fields whose names differ only after the first dot, like `LSP.2018.tif` and `LSP.2019.tif`, are written
to the same file. -/
theorem c264_fields_violated (r : Run) (fields : List (List Char)) (years : List Int) (i j : Nat) (a x y : List Char)
    (hij : i < j) (hi : fields[i]? = some (a ++ '.' :: x)) (hj : fields[j]? = some (a ++ '.' :: y)) (ha : '.' ∉ a)
    (hy : years ≠ []) : ¬ (written r (cfi r fields years)).Nodup := by
  intro h
  have hpw := (List.nodup_flatMap.1 h).2
  obtain ⟨p, hp⟩ : ∃ p, p = (⟨"IMP".toList, true, a ++ '_' :: "IMP".toList, r.explode,
    years.map fun y => "YEAR-".toList ++ Libc.fmtInt0 4 y⟩ : Product) := ⟨_, rfl⟩
  have hgi : (cfi r fields years)[i]? = some p := by
    unfold cfi
    rw [List.getElem?_map, hi, hp]
    simp only [Option.map_some, base_eq a _ ha]
  have hgj : (cfi r fields years)[j]? = some p := by
    unfold cfi
    rw [List.getElem?_map, hj, hp]
    simp only [Option.map_some, base_eq a _ ha]
  obtain ⟨h1, h2⟩ := List.getElem?_eq_some_iff.1 hgi
  obtain ⟨h3, h4⟩ := List.getElem?_eq_some_iff.1 hgj
  have k := List.pairwise_iff_getElem.1 hpw i j h1 h3 hij
  rw [Function.onFun, h2, h4] at k
  have hne : files r p ≠ [] := by
    unfold files
    split
    · rw [hp]
      simp [hy]
    · simp
  obtain ⟨f, hf⟩ := List.exists_mem_of_ne_nil _ hne
  exact k hf hf

/-- C264, violated: the same with features in texture and landscape metrics, if the bands are written to single files. -/
theorem c264_features_violated (r : Run) (name tag n : List Char) (names : List (List Char)) (out : List Char → Bool)
    (features : List (List Char × Int)) (i j : Nat) (a x y : List Char) (b : Int) (he : r.explode = true) (hn : n ∈ names)
    (ho : out n = true) (hij : i < j) (hi : features[i]? = some (a ++ '.' :: x, b)) (hj : features[j]? = some (a ++ '.' :: y, b))
    (ha : '.' ∉ a) : ¬ (written r (featured r name tag names out features)).Nodup := by
  intro h
  have hp : (⟨n, true, name ++ tag ++ n, r.explode, features.map featureBand⟩ : Product) ∈
      featured r name tag names out features := by
    unfold featured enabled
    exact List.mem_map.2 ⟨_, List.mem_filter.2 ⟨List.mem_map.2 ⟨n, hn, rfl⟩, ho⟩, rfl⟩
  have k := bands_nodup r _ he (product_nodup r _ h _ hp)
  refine twice_not_nodup _ i j (a ++ '_' :: 'B' :: Libc.fmtInt0 4 b) hij ?_ ?_ k
  · show (features.map featureBand)[i]? = _
    rw [List.getElem?_map, hi]
    simp only [Option.map_some, featureBand, base_eq a _ ha]
  · show (features.map featureBand)[j]? = _
    rw [List.getElem?_map, hj]
    simp only [Option.map_some, featureBand, base_eq a _ ha]

theorem mapM_none' {α β : Type} (f : α → Option β) (l : List α) (a : α) (ha : a ∈ l) (h : f a = none) : l.mapM f = none := by
  induction l with
  | nil => cases ha
  | cons b l ih =>
    rw [List.mapM_cons]
    rcases List.mem_cons.1 ha with rfl | hb
    · rw [h]; rfl
    · rw [ih hb]
      cases f b <;> rfl

theorem index_metric (metrics : List Stat) (k : Stat) (i : Nat) (h : index metrics k = some i) :
    (metrics[i]? = some k ∧ ∀ j, i < j → metrics[j]? ≠ some k) ∨ (k = .num ∧ i = 0 ∧ Stat.num ∉ metrics) := by
  unfold index at h
  split at h
  · next x hx =>
    obtain rfl := Option.some.inj h
    have hm := List.mem_of_getLast? hx
    obtain ⟨h1, h2⟩ := List.mem_filter.1 hm
    have h2 : x.1 = k := by simpa using h2
    rw [List.mem_zipIdx_iff_getElem?] at h1
    refine .inl ⟨by rw [h1, h2], fun j hj hc => ?_⟩
    have hy : (k, j) ∈ metrics.zipIdx.filter (fun x => decide (x.1 = k)) := by
      rw [List.mem_filter]
      exact ⟨by rw [List.mem_zipIdx_iff_getElem?]; exact hc, by simp⟩
    have hs : (metrics.zipIdx.filter (fun x => decide (x.1 = k))).Pairwise fun a b => a.2 < b.2 := by
      refine List.Pairwise.filter _ ?_
      have h3 := List.pairwise_lt_range' (s := 0) (n := metrics.length) (step := 1)
      rw [← List.zipIdx_map_snd 0 metrics, List.pairwise_map] at h3
      exact h3
    obtain ⟨l, hl⟩ := List.getLast?_eq_some_iff.1 hx
    rw [hl] at hy hs
    rcases List.mem_append.1 hy with hy | hy
    · have := (List.pairwise_append.1 hs).2.2 _ hy x (by simp)
      simp only at this
      omega
    · have := List.mem_singleton.1 hy
      rw [← this] at hj
      simp at hj
  · next hx =>
    split at h
    · next hk =>
      refine .inr ⟨hk, (Option.some.inj h).symm, fun hm => ?_⟩
      obtain ⟨a, ha, hak⟩ := List.getElem_of_mem hm
      have hy : (k, a) ∈ metrics.zipIdx.filter (fun x => decide (x.1 = k)) := by
        rw [List.mem_filter]
        refine ⟨?_, by simp⟩
        rw [List.mem_zipIdx_iff_getElem?]
        simp only
        rw [List.getElem?_eq_getElem ha, hak, hk]
      rw [List.getLast?_eq_none_iff.1 hx] at hy
      cases hy
    · cases h

/-- C264, violated: if a statistic of the clear-sky observations is requested twice, the name of one of the products is
not set. -/
theorem c264_statistic_violated (r : Run) (p : Period) (step : Int) (target : List Char) (metrics : List Stat) (month : Int)
    (nw : Nat) (m : Stat) (i j : Nat) (hq : ∀ k, m ≠ .q k) (hij : i < j) (hi : metrics[i]? = some m)
    (hj : metrics[j]? = some m) (h0 : 0 < i ∨ Stat.num ∈ metrics) : cso r p step target metrics month nw = none := by
  have hlt : i < metrics.length := (List.getElem?_eq_some_iff.1 hi).1
  refine mapM_none' _ _ i (List.mem_range.2 hlt) ?_
  have e : csoName metrics i = none := by
    unfold csoName
    rw [hi]
    have hf : (([.num, .min, .max, .rng, .iqr, .avg, .std, .skw, .krt] : List Stat).filter
        fun k => decide (index metrics k = some i)) = [] := by
      rw [List.filter_eq_nil_iff]
      intro k _ hk
      simp only [decide_eq_true_eq] at hk
      rcases index_metric metrics k i hk with ⟨h1, h2⟩ | ⟨-, h1, h2⟩
      · rw [hi] at h1
        obtain rfl := Option.some.inj h1
        exact h2 j hij hj
      · rcases h0 with h0 | h0
        · omega
        · exact h2 h0
    cases m
    case q k => exact absurd rfl (hq k)
    all_goals
      simp only
      rw [hf]
      rfl
  rw [e]
  rfl

/-- C264, violated: if the first statistic is requested twice and the number of observations is not requested, the product
is called like the number of observations. -/
theorem c264_number_violated : csoName [.min, .max, .min] 0 = some "NUM".toList ∧ csoName [.min, .max] 0 = some "MIN".toList := by
  decide +kernel

theorem cso_mem (r : Run) (p : Period) (step : Int) (target : List Char) (metrics : List Stat) (month : Int) (nw : Nat)
    (ps : List Product) (e : cso r p step target metrics month nw = some ps) (q : Product) (h : q ∈ ps) :
    ∃ n, q = ⟨n, true, p.text ++ '-' :: (Libc.fmtInt0 2 step ++ ("_HL_CSO_".toList ++ (target ++ ['_']))) ++ n, r.explode,
      csoBands step nw p.y0 month⟩ := by
  unfold cso at e
  generalize List.range metrics.length = l at e
  induction l generalizing ps with
  | nil => cases e; cases h
  | cons i l ih =>
    rw [List.mapM_cons] at e
    cases hn : csoName metrics i with
    | none => rw [hn] at e; cases e
    | some n =>
      rw [hn] at e
      simp only [Option.map_some] at e
      cases hl : (l.mapM fun i => (csoName metrics i).map fun n => (⟨n, true,
          p.text ++ '-' :: (Libc.fmtInt0 2 step ++ ("_HL_CSO_".toList ++ (target ++ ['_']))) ++ n, r.explode,
          csoBands step nw p.y0 month⟩ : Product)) with
      | none => rw [hl] at e; cases e
      | some ps' =>
        rw [hl] at e
        obtain rfl := Option.some.inj e
        rcases List.mem_cons.1 h with rfl | h
        · exact ⟨n, rfl⟩
        · exact ih ps' h hl

/-- C265: but for Level 2 ImproPhe, products go to the folder of the tile or, with sub-folders, to a folder with the name of the product therein. -/
theorem c265_folders_partial (r : Run) (y m d step month : Int) (target name : List Char) (o4 : Bool × Bool × Bool × Bool)
    (o5 : Bool × Bool × Bool × Bool × Bool) (out : List Char → Bool) (ard libs fields : List (List Char)) (p : Period)
    (metrics : List Stat) (nw : Nat) (sets : List (List Char × Nat)) (features : List (List Char × Int)) (years : List Int)
    (py rs : Bool × List (List Char)) (q : Product)
    (hq : q ∈ level3 r y m d target o4 ard ∨ (∃ ps, cso r p step target metrics month nw = some ps ∧ q ∈ ps) ∨
      q ∈ ml r name o5 sets ∨ q ∈ featured r name "_HL_TXT_".toList txtNames out features ∨
      q ∈ featured r name "_HL_LSM_".toList lsmNames out features ∨ q ∈ lib r name libs ∨ q ∈ cfi r fields years ∨
      q ∈ udf r p target py rs)
    (hs : ('/' ∉ q.stem) ∧ (∀ b ∈ q.bands, '/' ∉ b) ∧ '/' ∉ r.ext) (f : List Char) (hf : f ∈ files r q) :
    ∃ rest, '/' ∉ rest ∧ f = r.dir ++ "/X".toList ++ Libc.fmtInt0 4 r.tx ++ "_Y".toList ++ Libc.fmtInt0 4 r.ty ++ "/".toList ++
      (if r.subfolders = true then q.name else []) ++ "/".toList ++ rest := by
  have hen : ∀ l : List (Bool × Product), q ∈ enabled l → ∃ x ∈ l, x.2 = q := by
    intro l h
    obtain ⟨x, hx, rfl⟩ := List.mem_map.1 h
    exact ⟨x, (List.mem_filter.1 hx).1, rfl⟩
  have hfold : q.folder = true := by
    rcases hq with h | ⟨ps, e, h⟩ | h | h | h | h | h | h
    · obtain ⟨x, hx, rfl⟩ := hen _ h
      simp only [List.mem_cons, List.not_mem_nil, or_false] at hx
      rcases hx with rfl | rfl | rfl | rfl <;> rfl
    · obtain ⟨n, rfl⟩ := cso_mem r p step target metrics month nw ps e q h
      rfl
    · obtain ⟨x, hx, rfl⟩ := hen _ h
      simp only [List.mem_cons, List.not_mem_nil, or_false] at hx
      rcases hx with rfl | rfl | rfl | rfl | rfl <;> rfl
    · obtain ⟨x, hx, rfl⟩ := hen _ h
      obtain ⟨n, -, rfl⟩ := List.mem_map.1 hx
      rfl
    · obtain ⟨x, hx, rfl⟩ := hen _ h
      obtain ⟨n, -, rfl⟩ := List.mem_map.1 hx
      rfl
    · obtain rfl := List.mem_singleton.1 h
      rfl
    · obtain ⟨n, -, rfl⟩ := List.mem_map.1 h
      rfl
    · obtain ⟨x, hx, rfl⟩ := hen _ h
      simp only [List.mem_cons, List.not_mem_nil, or_false] at hx
      rcases hx with rfl | rfl <;> rfl
  obtain ⟨s1, s2, s3⟩ := hs
  have hdot : '/' ∉ '.' :: r.ext := fun hm => by
    rcases List.mem_cons.1 hm with h | h
    · exact absurd h (by decide)
    · exact s3 h
  unfold files at hf
  split at hf
  · obtain ⟨b, hb, rfl⟩ := List.mem_map.1 hf
    refine ⟨q.stem ++ ('_' :: b ++ '.' :: r.ext), ?_, ?_⟩
    · intro hm
      simp only [List.mem_append, List.mem_cons] at hm
      rcases hm with h | (h | h) | h | h
      · exact s1 h
      · exact absurd h (by decide)
      · exact s2 b hb h
      · exact absurd h (by decide)
      · exact s3 h
    · unfold file dirName
      rw [if_pos hfold]
      simp
  · obtain rfl := List.mem_singleton.1 hf
    refine ⟨q.stem ++ '.' :: r.ext, ?_, ?_⟩
    · intro hm
      rcases List.mem_append.1 hm with h | h
      · exact s1 h
      · exact hdot h
    · unfold file dirName
      rw [if_pos hfold]
      simp

/-- C265, violated: Level 2 ImproPhe does not know sub-folders; its files are in the folder of the tile. -/
theorem c265_improphe_violated (r : Run) (images : List Shot) (bands : List (List Char)) (q : Product)
    (hq : q ∈ l2i r images bands) (hb : ∀ b ∈ bands, '/' ∉ b) (hs : '/' ∉ q.stem ∧ '/' ∉ r.ext) (f : List Char)
    (hf : f ∈ files r q) : ∃ rest, '/' ∉ rest ∧
      f = r.dir ++ "/X".toList ++ Libc.fmtInt0 4 r.tx ++ "_Y".toList ++ Libc.fmtInt0 4 r.ty ++ "/".toList ++ rest := by
  obtain ⟨n, -, rfl⟩ := List.mem_map.1 hq
  obtain ⟨s1, s3⟩ := hs
  unfold files at hf
  split at hf
  · obtain ⟨b, hm, rfl⟩ := List.mem_map.1 hf
    refine ⟨(Tsa.compact n.y n.m n.d ++ ("_LEVEL2_".toList ++ (n.sensor ++ '_' :: "IMP".toList))) ++
      ('_' :: b ++ '.' :: r.ext), ?_, by simp [file, dirName]⟩
    intro hm'
    rcases List.mem_append.1 hm' with h | h
    · exact s1 h
    · simp only [List.cons_append, List.mem_cons, List.mem_append] at h
      rcases h with h | h | h | h
      · exact absurd h (by decide)
      · exact hb b hm h
      · exact absurd h (by decide)
      · exact s3 h
  · obtain rfl := List.mem_singleton.1 hf
    refine ⟨(Tsa.compact n.y n.m n.d ++ ("_LEVEL2_".toList ++ (n.sensor ++ '_' :: "IMP".toList))) ++ '.' :: r.ext, ?_,
      by simp [file, dirName]⟩
    intro hm
    rcases List.mem_append.1 hm with h | h
    · exact s1 h
    · rcases List.mem_cons.1 h with h | h
      · exact absurd h (by decide)
      · exact s3 h

/-- C266: with `OUTPUT_EXPLODE` every band is a file; without it, every product is. This holds for the information and the
scores of composites. -/
theorem c266_level3_partial (r : Run) (y m d : Int) (target : List Char) (out : Bool × Bool × Bool × Bool)
    (ard : List (List Char)) (q : Product) (hq : q ∈ level3 r y m d target out ard)
    (hn : q.name = "INF".toList ∨ q.name = "SCR".toList) :
    (files r q).length = if r.explode then (if q.name = "INF".toList then 6 else 7) else 1 := by
  obtain ⟨x, hx, rfl⟩ := List.mem_map.1 hq
  have hx := (List.mem_filter.1 hx).1
  simp only [List.mem_cons, List.not_mem_nil, or_false] at hx
  have n1 : ¬ ("BAP".toList = "INF".toList ∨ "BAP".toList = "SCR".toList) := by decide
  have n2 : ¬ ("OVV".toList = "INF".toList ∨ "OVV".toList = "SCR".toList) := by decide
  have n3 : ¬ "SCR".toList = "INF".toList := by decide
  rcases hx with rfl | rfl | rfl | rfl
  · exact absurd hn n1
  · unfold files
    dsimp only
    cases r.explode <;> rfl
  · unfold files
    dsimp only
    rw [if_neg n3]
    cases r.explode <;> rfl
  · exact absurd hn n2

/-- C266: in the other modules every band is a file with `OUTPUT_EXPLODE`, and every product is one without it. -/
theorem c266_bands (r : Run) (name : List Char) (o5 : Bool × Bool × Bool × Bool × Bool) (out : List Char → Bool)
    (libs fields : List (List Char)) (p : Period) (target : List Char) (sets : List (List Char × Nat))
    (features : List (List Char × Int)) (years : List Int) (images : List Shot) (bands : List (List Char))
    (py rs : Bool × List (List Char)) :
    (∀ q ∈ ml r name o5 sets, (files r q).length =
      if r.explode then (if q.name = "RFP".toList then (sets.map (·.2)).sum else sets.length) else 1) ∧
    (∀ q ∈ featured r name "_HL_TXT_".toList txtNames out features,
      (files r q).length = if r.explode then features.length else 1) ∧
    (∀ q ∈ featured r name "_HL_LSM_".toList lsmNames out features,
      (files r q).length = if r.explode then features.length else 1) ∧
    (∀ q ∈ lib r name libs, (files r q).length = if r.explode then libs.length + 1 else 1) ∧
    (∀ q ∈ cfi r fields years, (files r q).length = if r.explode then years.length else 1) ∧
    (∀ q ∈ l2i r images bands, (files r q).length = if r.explode then bands.length else 1) ∧
    (∀ q ∈ udf r p target py rs, (files r q).length =
      if r.explode then (if q.name = "PYP".toList then py.2.length else rs.2.length) else 1) := by
  have key : ∀ q : Product, q.explode = r.explode → (files r q).length = if r.explode then q.bands.length else 1 := by
    intro q he
    unfold files
    rw [he]
    cases r.explode
    · rfl
    · simp
  have hen : ∀ (l : List (Bool × Product)) (q : Product), q ∈ enabled l → ∃ x ∈ l, x.2 = q := by
    intro l q h
    obtain ⟨x, hx, rfl⟩ := List.mem_map.1 h
    exact ⟨x, (List.mem_filter.1 hx).1, rfl⟩
  refine ⟨?_, ?_, ?_, ?_, ?_, ?_, ?_⟩
  · intro q hq
    obtain ⟨x, hx, rfl⟩ := hen _ _ hq
    have hc : (sets.flatMap fun s => List.replicate s.2 (base s.1)).length = (sets.map (·.2)).sum := by
      rw [List.length_flatMap]
      congr 1
      apply List.map_congr_left
      intro s _
      exact List.length_replicate
    have n1 : ¬ "MLP".toList = "RFP".toList := by decide
    have n2 : ¬ "MLI".toList = "RFP".toList := by decide
    have n3 : ¬ "MLU".toList = "RFP".toList := by decide
    have n4 : ¬ "RFM".toList = "RFP".toList := by decide
    simp only [List.mem_cons, List.not_mem_nil, or_false] at hx
    rcases hx with rfl | rfl | rfl | rfl | rfl
    · rw [key _ rfl, if_neg n1, List.length_map]
    · rw [key _ rfl, if_neg n2, List.length_map]
    · rw [key _ rfl, if_neg n3, List.length_map]
    · rw [key _ rfl, if_pos rfl, hc]
    · rw [key _ rfl, if_neg n4, List.length_map]
  · intro q hq
    obtain ⟨x, hx, rfl⟩ := hen _ _ hq
    obtain ⟨n, -, rfl⟩ := List.mem_map.1 hx
    rw [key _ rfl, List.length_map]
  · intro q hq
    obtain ⟨x, hx, rfl⟩ := hen _ _ hq
    obtain ⟨n, -, rfl⟩ := List.mem_map.1 hx
    rw [key _ rfl, List.length_map]
  · intro q hq
    obtain rfl := List.mem_singleton.1 hq
    rw [key _ rfl, List.length_append, List.length_map]
    rfl
  · intro q hq
    obtain ⟨n, -, rfl⟩ := List.mem_map.1 hq
    rw [key _ rfl, List.length_map]
  · intro q hq
    obtain ⟨n, -, rfl⟩ := List.mem_map.1 hq
    rw [key _ rfl]
  · intro q hq
    obtain ⟨x, hx, rfl⟩ := hen _ _ hq
    have n1 : ¬ "RSP".toList = "PYP".toList := by decide
    simp only [List.mem_cons, List.not_mem_nil, or_false] at hx
    rcases hx with rfl | rfl
    · rw [key _ rfl, if_pos rfl]
    · rw [key _ rfl, if_neg n1]

/-- C266: clear-sky observations have one file per window with `OUTPUT_EXPLODE`, and one per statistic without it. -/
theorem c266_windows (r : Run) (p : Period) (step : Int) (target : List Char) (metrics : List Stat) (month : Int) (nw : Nat)
    (ps : List Product) (e : cso r p step target metrics month nw = some ps) :
    ps.length = metrics.length ∧ ∀ q ∈ ps, (files r q).length = if r.explode then nw else 1 := by
  constructor
  · unfold cso at e
    rw [← List.length_range (n := metrics.length)]
    generalize List.range metrics.length = l at e
    induction l generalizing ps with
    | nil => cases e; rfl
    | cons i l ih =>
      rw [List.mapM_cons] at e
      cases hn : csoName metrics i with
      | none => rw [hn] at e; cases e
      | some n =>
        rw [hn] at e
        simp only [Option.map_some] at e
        cases hl : (l.mapM fun i => (csoName metrics i).map fun n => (⟨n, true,
            p.text ++ '-' :: (Libc.fmtInt0 2 step ++ ("_HL_CSO_".toList ++ (target ++ ['_']))) ++ n, r.explode,
            csoBands step nw p.y0 month⟩ : Product)) with
        | none => rw [hl] at e; cases e
        | some ps' =>
          rw [hl] at e
          obtain rfl := Option.some.inj e
          rw [List.length_cons, List.length_cons, ih ps' hl]
  · intro q hq
    obtain ⟨n, rfl⟩ := cso_mem r p step target metrics month nw ps e q hq
    have hb : ∀ (n : Nat) (y m : Int), (csoBands step n y m).length = n := by
      intro n
      induction n with
      | zero => intro y m; rfl
      | succ n ih => intro y m; rw [csoBands, List.length_cons, ih]
    unfold files
    dsimp only
    cases r.explode
    · rfl
    · rw [if_pos rfl, if_pos rfl, List.length_map, hb]

/-- C266, violated: the composite itself and its preview are one file each, also with `OUTPUT_EXPLODE`. -/
theorem c266_composite_violated (r : Run) (y m d : Int) (target : List Char) (out : Bool × Bool × Bool × Bool)
    (ard : List (List Char)) (q : Product) (hq : q ∈ level3 r y m d target out ard)
    (hn : q.name = "BAP".toList ∨ q.name = "OVV".toList) : (files r q).length = 1 := by
  obtain ⟨x, hx, rfl⟩ := List.mem_map.1 hq
  have hx := (List.mem_filter.1 hx).1
  simp only [List.mem_cons, List.not_mem_nil, or_false] at hx
  have n1 : ¬ ("INF".toList = "BAP".toList ∨ "INF".toList = "OVV".toList) := by decide
  have n2 : ¬ ("SCR".toList = "BAP".toList ∨ "SCR".toList = "OVV".toList) := by decide
  rcases hx with rfl | rfl | rfl | rfl
  · rfl
  · exact absurd hn n1
  · exact absurd hn n2
  · rfl

/-! ## The hypotheses can be met -/

/-- A run. -/
def exRun (explode : Bool) : Run := ⟨"/data".toList, 69, 42, true, explode, "tif".toList⟩

example : ([.num, .min, .q 25, .q 50, .std] : List Stat).Nodup := by decide

/-- Two sets, one class each; different features; different fields. -/
example : (([("rf.xml".toList, 1), ("svr.xml".toList, 1)] : List (List Char × Nat)).map fun s => base s.1).Nodup ∧
    (([("a.tif".toList, 1), ("a.tif".toList, 2), ("b.tif".toList, 1)] : List (List Char × Int)).map
      fun f => (base f.1, f.2)).Nodup ∧
    ((["LSP-2018.tif".toList, "LSP-2019.tif".toList] : List (List Char)).map base).Nodup ∧
    "LIBRARY-SUMMARY".toList ∉ (["urban.txt".toList] : List (List Char)).map base := by decide +kernel

/-- The files of a texture product. -/
example : written (exRun true) (featured (exRun true) "T".toList "_HL_TXT_".toList txtNames (fun n => n = "ERO".toList)
      [("a.tif".toList, 1), ("a.tif".toList, 2)]) =
    ["/data/X0069_Y0042/ERO/T_HL_TXT_ERO_a_B0001.tif".toList, "/data/X0069_Y0042/ERO/T_HL_TXT_ERO_a_B0002.tif".toList] := by
  decide +kernel

/-- Two classes, one file. -/
example : written (exRun true) (ml (exRun true) "M".toList (false, false, false, true, false) [("rf.xml".toList, 2)]) =
    ["/data/X0069_Y0042/RFP/M_HL_ML_RFP_rf.tif".toList, "/data/X0069_Y0042/RFP/M_HL_ML_RFP_rf.tif".toList] := by
  decide +kernel

/-- Two fields, one file. -/
example : written (exRun false) (cfi (exRun false) ["LSP.2018.tif".toList, "LSP.2019.tif".toList] [2018]) =
    ["/data/X0069_Y0042/IMP/LSP_IMP.tif".toList, "/data/X0069_Y0042/IMP/LSP_IMP.tif".toList] := by decide +kernel

/-- Clear-sky observations. -/
example : (cso (exRun true) ⟨2018, 2018, 1, 365⟩ 6 "LNDLG".toList [.q 5, .std] 1 2).map (written (exRun true)) =
    some ["/data/X0069_Y0042/Q05/2018-2018_001-365-06_HL_CSO_LNDLG_Q05_20180101.tif".toList,
      "/data/X0069_Y0042/Q05/2018-2018_001-365-06_HL_CSO_LNDLG_Q05_20180701.tif".toList,
      "/data/X0069_Y0042/STD/2018-2018_001-365-06_HL_CSO_LNDLG_STD_20180101.tif".toList,
      "/data/X0069_Y0042/STD/2018-2018_001-365-06_HL_CSO_LNDLG_STD_20180701.tif".toList] := by decide +kernel

/-- Images of Level 2 ImproPhe. -/
example : written (exRun false) (l2i (exRun false) [⟨2018, 5, 6, "SEN2A".toList⟩, ⟨2018, 5, 6, "SEN2B".toList⟩] []) =
    ["/data/X0069_Y0042/20180506_LEVEL2_SEN2A_IMP.tif".toList, "/data/X0069_Y0042/20180506_LEVEL2_SEN2B_IMP.tif".toList] := by
  decide +kernel

end Verif.Naming
