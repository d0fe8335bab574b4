import Mathlib.Data.List.Basic
import Mathlib.Data.List.Nodup
import Verif.Naming.Model
import Verif.Str.Props2
import Verif.Tsa.Names

/-!
# Every product and every band has its own file (C264), folders (C265), single bands (C266) -/

namespace Verif.Naming

/-- All files of a list of products, one after the other. -/
def written (r : Run) (ps : List Product) : List (List Char) := ps.flatMap (files r)

/-- The name before the first dot is what the code computes. -/
theorem base_ok (name : List Char) (h0 : name ≠ []) (h1 : '/' ∉ name) (h2 : Str.nul ∉ name) (h3 : name.length < 1024) :
    Str.basenameWithoutExt name 1024 = .ok (base name, name) := by
  have k := Str.c33_basename name name 0 1024 (.inr ⟨rfl, h1⟩) h0 h2 h3
  rw [List.replicate_zero, List.append_nil] at k
  unfold Str.basenameWithoutExt
  rw [k]
  rfl

theorem base_dot (name : List Char) : '.' ∉ base name := by
  intro hm
  have := List.mem_takeWhile_imp hm
  simp at this

theorem base_eq (a x : List Char) (h : '.' ∉ a) : base (a ++ '.' :: x) = a := by
  unfold base
  rw [List.takeWhile_append_of_pos (by intro c hc; simp; rintro rfl; exact h hc)]
  simp

theorem enabled_sub {α : Type} (l : List (Bool × α)) : (enabled l).Sublist (l.map (·.2)) :=
  List.Sublist.map _ List.filter_sublist

theorem file_inj (r : Run) (p : Product) (a b : List Char) (h : file r p (some a) = file r p (some b)) : a = b := by
  unfold file at h
  have h := List.append_cancel_left h
  simp only [List.cons.injEq, true_and] at h
  have h := List.append_cancel_left h
  simp only [List.cons_append, List.cons.injEq, true_and] at h
  exact List.append_cancel_right h

theorem files_nodup_of (r : Run) (p : Product) (h : p.explode = true → p.bands.Nodup) : (files r p).Nodup := by
  unfold files
  split
  · next he => exact List.Nodup.map_on (fun a _ b _ hab => file_inj r p a b hab) (h he)
  · exact List.nodup_singleton _

/-- A file has one of the forms. -/
theorem mem_files (r : Run) (p : Product) (f : List Char) (h : f ∈ files r p) :
    ∃ t, f = dirName r p ++ '/' :: (p.stem ++ t) := by
  unfold files at h
  split at h
  · obtain ⟨b, -, rfl⟩ := List.mem_map.1 h
    exact ⟨_, rfl⟩
  · obtain rfl := List.mem_singleton.1 h
    exact ⟨_, rfl⟩

/-- Products whose file names differ in the name of the product only. -/
theorem written_nodup (r : Run) (pre : List Char) (ps : List Product) (n : Nat)
    (hs : ∀ p ∈ ps, p.stem = pre ++ p.name ∧ p.name.length = n ∧ p.folder = true)
    (hn : (ps.map (·.name)).Nodup) (hb : ∀ p ∈ ps, p.explode = true → p.bands.Nodup) : (written r ps).Nodup := by
  unfold written
  rw [List.nodup_flatMap]
  refine ⟨fun p hp => files_nodup_of r p (hb p hp), ?_⟩
  have hn' : ps.Pairwise fun p q => p.name ≠ q.name := by
    unfold List.Nodup at hn
    rwa [List.pairwise_map] at hn
  refine hn'.imp_of_mem fun {p q} hp hq hne => ?_
  intro f hf hg
  obtain ⟨t, rfl⟩ := mem_files r p f hf
  obtain ⟨u, hu⟩ := mem_files r q _ hg
  obtain ⟨p1, p2, p3⟩ := hs p hp
  obtain ⟨q1, q2, q3⟩ := hs q hq
  apply hne
  unfold dirName at hu
  rw [p1, q1, if_pos p3, if_pos q3] at hu
  simp only [List.append_assoc, List.cons_append] at hu
  have hu := List.append_cancel_left hu
  simp only [List.cons.injEq, true_and] at hu
  have hu := List.append_cancel_left hu
  simp only [List.cons.injEq, true_and] at hu
  have hu := List.append_cancel_left hu
  simp only [List.cons.injEq, true_and] at hu
  by_cases hr : r.subfolders = true
  · rw [if_pos hr, if_pos hr] at hu
    exact (List.append_inj hu (by rw [p2, q2])).1
  · rw [if_neg hr, if_neg hr] at hu
    simp only [List.nil_append, List.cons.injEq, true_and] at hu
    have hu := List.append_cancel_left hu
    exact (List.append_inj hu (by rw [p2, q2])).1

theorem written_enabled (r : Run) (pre : List Char) (l : List (Bool × Product)) (n : Nat)
    (hs : ∀ x ∈ l, x.2.stem = pre ++ x.2.name ∧ x.2.name.length = n ∧ x.2.folder = true)
    (hn : (l.map (·.2.name)).Nodup) (hb : ∀ x ∈ l, x.1 = true → x.2.explode = true → x.2.bands.Nodup) :
    (written r (enabled l)).Nodup := by
  have hm : ∀ p ∈ enabled l, ∃ x ∈ l, x.1 = true ∧ x.2 = p := by
    intro p hp
    obtain ⟨x, hx, rfl⟩ := List.mem_map.1 hp
    exact ⟨x, (List.mem_filter.1 hx).1, (List.mem_filter.1 hx).2, rfl⟩
  refine written_nodup r pre _ n ?_ ?_ ?_
  · intro p hp
    obtain ⟨x, hx, -, rfl⟩ := hm p hp
    exact hs x hx
  · refine List.Nodup.sublist ((enabled_sub l).map _) ?_
    rw [List.map_map]
    exact hn
  · intro p hp
    obtain ⟨x, hx, h1, rfl⟩ := hm p hp
    exact hb x hx h1

/-- C264: best available pixel composites. -/
theorem c264_level3 (r : Run) (y m d : Int) (target : List Char) (out : Bool × Bool × Bool × Bool)
    (ard : List (List Char)) : (written r (level3 r y m d target out ard)).Nodup := by
  unfold level3
  refine written_enabled r (Tsa.compact y m d ++ ("_LEVEL3_".toList ++ (target ++ ['_']))) _ 3 ?_ ?_ ?_
  · intro x hx
    simp only [List.mem_cons, List.not_mem_nil, or_false] at hx
    rcases hx with rfl | rfl | rfl | rfl <;> exact ⟨rfl, rfl, rfl⟩
  · show (["BAP".toList, "INF".toList, "SCR".toList, "OVV".toList] : List (List Char)).Nodup
    decide +kernel
  · intro x hx _ he
    simp only [List.mem_cons, List.not_mem_nil, or_false] at hx
    rcases hx with rfl | rfl | rfl | rfl
    · exact absurd he (by simp)
    · show infTags.Nodup
      decide +kernel
    · show scrTags.Nodup
      decide +kernel
    · exact absurd he (by simp)

theorem cso_bands_lt (step : Int) (hs : 1 ≤ step ∧ step ≤ 12) (n : Nat) :
    ∀ y m : Int, 0 ≤ y → 1 ≤ m → m ≤ 24 → y + n + 1 ≤ 9999 →
      (csoBands step n y m).Nodup ∧ ∀ b ∈ csoBands step n y m, ∃ y' m', b = Tsa.compact y' m' 1 ∧
        Tsa.Plain y' m' 1 ∧ 12 * y + m ≤ 12 * y' + m' := by
  induction n with
  | zero => intro y m _ _ _ _; exact ⟨List.nodup_nil, fun b hb => by cases hb⟩
  | succ n ih =>
    intro y m hy hm1 hm2 hy2
    rw [csoBands]
    generalize hc : (if m > 12 then (y + 1, m - 12) else (y, m)) = c
    have k : 0 ≤ c.1 ∧ c.1 ≤ y + 1 ∧ 1 ≤ c.2 ∧ c.2 ≤ 12 ∧ 12 * c.1 + c.2 = 12 * y + m := by
      by_cases hm : m > 12
      · rw [if_pos hm] at hc; rw [← hc]; dsimp only; omega
      · rw [if_neg hm] at hc; rw [← hc]; dsimp only; omega
    obtain ⟨k1, k2, k3, k4, k5⟩ := k
    push_cast at hy2
    obtain ⟨h1, h2⟩ : (csoBands step n c.1 (c.2 + step)).Nodup ∧ ∀ b ∈ csoBands step n c.1 (c.2 + step),
        ∃ y' m', b = Tsa.compact y' m' 1 ∧ Tsa.Plain y' m' 1 ∧ 12 * c.1 + (c.2 + step) ≤ 12 * y' + m' := by
      by_cases hcy : c.1 ≤ y
      · exact ih c.1 (c.2 + step) k1 (by omega) (by omega) (by omega)
      · exact ih c.1 (c.2 + step) k1 (by omega) (by omega) (by omega)
    have hp : Tsa.Plain c.1 c.2 1 := ⟨⟨k1, by omega⟩, ⟨by omega, by omega⟩, by omega, by omega⟩
    refine ⟨List.nodup_cons.2 ⟨fun hmem => ?_, h1⟩, ?_⟩
    · obtain ⟨y', m', e, hp', hle⟩ := h2 _ hmem
      obtain ⟨⟨e1, e2, -⟩, -⟩ := Tsa.compact_inj _ _ _ _ _ _ [] [] hp hp' (by rw [e])
      omega
    · intro b hb
      rcases List.mem_cons.1 hb with rfl | hb
      · exact ⟨c.1, c.2, rfl, hp, by omega⟩
      · obtain ⟨y', m', e, hp', hle⟩ := h2 b hb
        exact ⟨y', m', e, hp', by omega⟩

theorem index_of (metrics : List Stat) (h : metrics.Nodup) (i : Nat) (m k : Stat) (hi : metrics[i]? = some m) :
    (index metrics k = some i ↔ k = m ∨ (k = .num ∧ Stat.num ∉ metrics ∧ i = 0)) := by
  have key : ∀ j, index metrics k = some j ↔ (metrics[j]? = some k ∨ (k ∉ metrics ∧ k = .num ∧ j = 0)) := by
    intro j
    unfold index
    by_cases hk : k ∈ metrics
    · obtain ⟨a, ha, hak⟩ := List.getElem_of_mem hk
      have e : metrics.zipIdx.filter (fun x => decide (x.1 = k)) = [(k, a)] := by
        have hnd : (metrics.zipIdx.filter (fun x => decide (x.1 = k))).Nodup :=
          List.Nodup.filter _ (List.Nodup.of_map Prod.fst (by rw [List.zipIdx_map_fst]; exact h))
        have hall : ∀ x ∈ metrics.zipIdx.filter (fun x => decide (x.1 = k)), x = (k, a) := by
          intro x hx
          obtain ⟨h1, h2⟩ := List.mem_filter.1 hx
          have h2 : x.1 = k := by simpa using h2
          obtain ⟨x1, x2⟩ := x
          have h3 := List.mem_zipIdx' h1
          simp only at h2 h3
          obtain ⟨h4, h5⟩ := h3
          subst h2
          congr 1
          exact (List.Nodup.getElem_inj_iff h).1 (by rw [← h5, hak])
        have hmem : (k, a) ∈ metrics.zipIdx.filter (fun x => decide (x.1 = k)) := by
          rw [List.mem_filter]
          refine ⟨?_, by simp⟩
          rw [List.mem_zipIdx_iff_getElem?]
          simp only
          rw [List.getElem?_eq_getElem ha, hak]
        generalize metrics.zipIdx.filter (fun x => decide (x.1 = k)) = l at *
        match l, hnd, hall, hmem with
        | [x], _, hall, _ => rw [hall x (by simp)]
        | x :: y :: l, hnd, hall, _ =>
          have h1 := hall x (by simp)
          have h2 := hall y (by simp)
          simp [h1, h2] at hnd
      rw [e]
      show some a = some j ↔ _
      constructor
      · intro h1
        obtain rfl := Option.some.inj h1
        exact .inl (by rw [List.getElem?_eq_getElem ha, hak])
      · rintro (h1 | ⟨h1, -⟩)
        · obtain ⟨h2, h3⟩ := List.getElem?_eq_some_iff.1 h1
          congr 1
          exact (List.Nodup.getElem_inj_iff h).1 (by rw [hak, h3])
        · exact absurd hk h1
    · have e : metrics.zipIdx.filter (fun x => decide (x.1 = k)) = [] := by
        rw [List.filter_eq_nil_iff]
        intro x hx
        obtain ⟨x1, x2⟩ := x
        have h3 := List.mem_zipIdx' hx
        simp only [decide_eq_true_eq]
        rintro rfl
        exact hk (by rw [h3.2]; exact List.getElem_mem _)
      rw [e]
      show (if k = .num then some 0 else none) = some j ↔ _
      have hno : metrics[j]? ≠ some k := fun hc => hk (List.mem_of_getElem? hc)
      by_cases hkn : k = .num
      · rw [if_pos hkn]
        constructor
        · intro h1; exact .inr ⟨hk, hkn, (Option.some.inj h1).symm⟩
        · rintro (h1 | ⟨-, -, rfl⟩)
          · exact absurd h1 hno
          · rfl
      · rw [if_neg hkn]
        constructor
        · intro h1; cases h1
        · rintro (h1 | ⟨-, h1, -⟩)
          · exact absurd h1 hno
          · exact absurd h1 hkn
  rw [key, hi]
  constructor
  · rintro (h1 | ⟨h1, h2, h3⟩)
    · exact .inl (Option.some.inj h1).symm
    · exact .inr ⟨h2, by rw [← h2]; exact h1, h3⟩
  · rintro (rfl | ⟨h1, h2, h3⟩)
    · exact .inl rfl
    · exact .inr ⟨by rw [h1]; exact h2, h1, h3⟩

theorem csoName_ok (metrics : List Stat) (h : metrics.Nodup) (i : Nat) (m : Stat) (hi : metrics[i]? = some m) :
    csoName metrics i = some (statName m) := by
  unfold csoName
  have hx := fun k => index_of metrics h i m k hi
  rw [hi]
  simp only [hx]
  by_cases hz : Stat.num ∉ metrics ∧ i = 0
  · cases m <;> simp [hz, List.filter]
  · have : ∀ k : Stat, (k = .num ∧ Stat.num ∉ metrics ∧ i = 0) ↔ False := fun k => by
      constructor
      · rintro ⟨-, h⟩; exact hz h
      · exact False.elim
    simp only [this, or_false]
    cases m <;> simp [List.filter]

theorem statName_length (m : Stat) : (statName m).length = 3 := by
  cases m
  case q k => 
    show (Libc.fmtInt0 2 (k.val : Int)).length + 1 = 3
    rw [(Tsa.fmt_pad 2 _ (by omega) (by have := k.isLt; push_cast; omega)).2.2]
  all_goals rfl

theorem statName_inj (a b : Stat) (h : statName a = statName b) : a = b := by
  cases a <;> cases b <;> first | rfl | (simp [statName] at h)
  next k l =>
    have hk := k.isLt
    have hl := l.isLt
    have := Tsa.fmt_inj 2 k.val l.val (by omega) (by push_cast; omega) (by omega) (by push_cast; omega) h
    congr 1
    exact Fin.ext (by exact_mod_cast this)

theorem mapM_some' {α β : Type} (f : α → Option β) (g : α → β) (l : List α) (h : ∀ a ∈ l, f a = some (g a)) :
    l.mapM f = some (l.map g) := by
  induction l with
  | nil => rfl
  | cons a l ih =>
    rw [List.mapM_cons, h a (by simp), ih fun b hb => h b (List.mem_cons_of_mem _ hb)]
    rfl

/-- C264: clear-sky observations, if no statistic is requested twice. -/
theorem c264_cso_partial (r : Run) (p : Period) (step : Int) (target : List Char) (metrics : List Stat) (month : Int) (nw : Nat)
    (h : metrics.Nodup) (hs : 1 ≤ step ∧ step ≤ 12) (hm : 1 ≤ month ∧ month ≤ 12) (hy : 0 ≤ p.y0 ∧ p.y0 + nw < 9999) :
    ∃ ps, cso r p step target metrics month nw = some ps ∧ ps.map (·.name) = metrics.map statName ∧ (written r ps).Nodup := by
  obtain ⟨pre, hpre⟩ : ∃ pre, pre = p.text ++ '-' :: (Libc.fmtInt0 2 step ++ ("_HL_CSO_".toList ++ (target ++ ['_']))) := ⟨_, rfl⟩
  have e : cso r p step target metrics month nw = some ((List.range metrics.length).map fun i =>
      (⟨statName (metrics.getD i .num), true, pre ++ statName (metrics.getD i .num), r.explode,
        csoBands step nw p.y0 month⟩ : Product)) := by
    unfold cso
    rw [← hpre]
    refine mapM_some' _ _ _ fun i hi => ?_
    have hi := List.mem_range.1 hi
    have e1 : metrics[i]? = some (metrics.getD i .num) := by
      rw [List.getD_eq_getElem?_getD, List.getElem?_eq_getElem hi]; rfl
    rw [csoName_ok metrics h i _ e1]
    rfl
  have hmap : ((List.range metrics.length).map fun i => metrics.getD i .num) = metrics := by
    apply List.ext_getElem (by simp)
    intro i h1 h2
    simp [List.getD_eq_getElem?_getD, List.getElem?_eq_getElem h2]
  have hnames : ((List.range metrics.length).map fun i => statName (metrics.getD i .num)) = metrics.map statName := by
    conv_rhs => rw [← hmap]
    rw [List.map_map]
    rfl
  refine ⟨_, e, ?_, ?_⟩
  · rw [List.map_map]; exact hnames
  · refine written_nodup r pre _ 3 ?_ ?_ ?_
    · intro q hq
      obtain ⟨i, -, rfl⟩ := List.mem_map.1 hq
      exact ⟨rfl, statName_length _, rfl⟩
    · rw [List.map_map]
      show ((List.range metrics.length).map fun i => statName (metrics.getD i .num)).Nodup
      rw [hnames]
      exact h.map fun a b hab => statName_inj a b hab
    · intro q hq _
      obtain ⟨i, -, rfl⟩ := List.mem_map.1 hq
      exact (cso_bands_lt step hs nw p.y0 month hy.1 hm.1 (by omega) (by omega)).1

theorem classes_sublist (sets : List (List Char × Nat)) (hc : ∀ s ∈ sets, s.2 ≤ 1) :
    (sets.flatMap fun s => List.replicate s.2 (base s.1)).Sublist (sets.map fun s => base s.1) := by
  induction sets with
  | nil => exact List.Sublist.refl _
  | cons s sets ih =>
    rw [List.flatMap_cons, List.map_cons]
    have h1 := hc s (by simp)
    have ih := ih fun t ht => hc t (List.mem_cons_of_mem _ ht)
    obtain h2 | h2 : s.2 = 0 ∨ s.2 = 1 := by omega
    · rw [h2]; exact List.Sublist.cons _ ih
    · rw [h2]; exact List.Sublist.cons_cons _ ih

/-- C264: machine learning, if the models have different names and the class probabilities of more than one class are not
written to single files. -/
theorem c264_ml_partial (r : Run) (name : List Char) (out : Bool × Bool × Bool × Bool × Bool) (sets : List (List Char × Nat))
    (h : (sets.map fun s => base s.1).Nodup) (hc : r.explode = true → out.2.2.2.1 = true → ∀ s ∈ sets, s.2 ≤ 1) :
    (written r (ml r name out sets)).Nodup := by
  unfold ml
  refine written_enabled r (name ++ "_HL_ML_".toList) _ 3 ?_ ?_ ?_
  · intro x hx
    simp only [List.mem_cons, List.not_mem_nil, or_false] at hx
    rcases hx with rfl | rfl | rfl | rfl | rfl <;> exact ⟨rfl, rfl, rfl⟩
  · show (["MLP".toList, "MLI".toList, "MLU".toList, "RFP".toList, "RFM".toList] : List (List Char)).Nodup
    decide +kernel
  · intro x hx ho he
    simp only [List.mem_cons, List.not_mem_nil, or_false] at hx
    rcases hx with rfl | rfl | rfl | rfl | rfl
    · exact h
    · exact h
    · exact h
    · exact List.Nodup.sublist (classes_sublist sets (hc he ho)) h
    · exact h

theorem fmt4_inj (v u : Int) (h0 : 0 ≤ v) (k0 : 0 ≤ u) (h : Libc.fmtInt0 4 v = Libc.fmtInt0 4 u) : v = u := by
  have key : ∀ v : Int, 0 ≤ v → Libc.natVal (Libc.fmtInt0 4 v) = v.natAbs := by
    intro v hv
    rw [Libc.fmtInt0, if_neg (by omega), Libc.fmtNat0]
    split
    · next hl => rw [Libc.natVal_padDigits, Nat.mod_eq_of_lt hl]
    · rw [Libc.natVal_decDigits]
  have a := key v h0
  rw [h, key u k0] at a
  omega

theorem fmt_no_underscore (w : Nat) (v : Int) : '_' ∉ Libc.fmtInt0 w v := by
  intro hm
  rcases Libc.fmtInt0_chars w v _ hm with h | h
  · exact absurd h (by decide)
  · exact absurd h (by decide)

theorem featureBand_inj (f g : List Char × Int) (hf : 0 ≤ f.2) (hg : 0 ≤ g.2) (h : featureBand f = featureBand g) :
    base f.1 = base g.1 ∧ f.2 = g.2 := by
  unfold featureBand at h
  have no : ∀ v : Int, '_' ∉ ('B' :: Libc.fmtInt0 4 v) := fun v hm => by
    rcases List.mem_cons.1 hm with h | h
    · exact absurd h (by decide)
    · exact fmt_no_underscore 4 v h
  obtain ⟨h1, h2⟩ := Tsa.split_last '_' _ _ _ _ (no _) (no _) h
  exact ⟨h1, fmt4_inj _ _ hf hg (List.cons.inj h2).2⟩

theorem featured_nodup (r : Run) (name tag : List Char) (names : List (List Char)) (out : List Char → Bool)
    (features : List (List Char × Int)) (hn : names.Nodup) (h3 : ∀ n ∈ names, n.length = 3)
    (hf : ∀ f ∈ features, 0 ≤ f.2) (h : (features.map fun f => (base f.1, f.2)).Nodup) :
    (written r (featured r name tag names out features)).Nodup := by
  unfold featured
  refine written_enabled r (name ++ tag) _ 3 ?_ ?_ ?_
  · intro x hx
    obtain ⟨n, hn, rfl⟩ := List.mem_map.1 hx
    exact ⟨rfl, h3 n hn, rfl⟩
  · rw [List.map_map]
    show (names.map fun n => n).Nodup
    rw [List.map_id']
    exact hn
  · intro x hx _ _
    obtain ⟨n, hn, rfl⟩ := List.mem_map.1 hx
    show (features.map featureBand).Nodup
    refine List.Nodup.map_on ?_ (List.Nodup.of_map _ h)
    intro a ha b hb hab
    obtain ⟨h1, h2⟩ := featureBand_inj a b (hf a ha) (hf b hb) hab
    exact List.inj_on_of_nodup_map h ha hb (by simp only [h1, h2])

/-- C264: texture, if features with the same band differ before the first dot of their names. -/
theorem c264_texture_partial (r : Run) (name : List Char) (out : List Char → Bool) (features : List (List Char × Int))
    (hf : ∀ f ∈ features, 0 ≤ f.2) (h : (features.map fun f => (base f.1, f.2)).Nodup) :
    (written r (featured r name "_HL_TXT_".toList txtNames out features)).Nodup :=
  featured_nodup r _ _ _ out features (by decide +kernel) (by decide +kernel) hf h

/-- C264: landscape metrics, if features with the same band differ before the first dot of their names. -/
theorem c264_landscape_partial (r : Run) (name : List Char) (out : List Char → Bool) (features : List (List Char × Int))
    (hf : ∀ f ∈ features, 0 ≤ f.2) (h : (features.map fun f => (base f.1, f.2)).Nodup) :
    (written r (featured r name "_HL_LSM_".toList lsmNames out features)).Nodup :=
  featured_nodup r _ _ _ out features (by decide +kernel) (by decide +kernel) hf h

/-- C264: library completeness, if the names of the libraries differ before the first dot and none is called like the summary. -/
theorem c264_library_partial (r : Run) (name : List Char) (libs : List (List Char)) (h : (libs.map base).Nodup)
    (hs : "LIBRARY-SUMMARY".toList ∉ libs.map base) : (written r (lib r name libs)).Nodup := by
  unfold lib
  refine written_nodup r (name ++ "_HL_LSM_".toList) _ 3 ?_ (List.nodup_singleton _) ?_
  · intro p hp
    obtain rfl := List.mem_singleton.1 hp
    exact ⟨rfl, rfl, rfl⟩
  · intro p hp _
    obtain rfl := List.mem_singleton.1 hp
    refine List.Nodup.append h (List.nodup_singleton _) ?_
    intro x hx hy
    obtain rfl := List.mem_singleton.1 hy
    exact hs hx

/-- Products of one directory. -/
theorem written_nodup_dir (r : Run) (d : List Char) (ps : List Product) (hd : ∀ p ∈ ps, dirName r p = d)
    (hb : ∀ p ∈ ps, p.explode = r.explode ∧ (r.explode = true → p.bands.Nodup))
    (h : ps.Pairwise fun p q => ∀ a b : List Char, ((r.explode = false ∧ a = [] ∧ b = []) ∨
      ∃ x ∈ p.bands, ∃ y ∈ q.bands, a = '_' :: x ∧ b = '_' :: y) → p.stem ++ a ≠ q.stem ++ b) : (written r ps).Nodup := by
  unfold written
  rw [List.nodup_flatMap]
  refine ⟨fun p hp => files_nodup_of r p fun he => (hb p hp).2 ((hb p hp).1 ▸ he), ?_⟩
  refine h.imp_of_mem fun {p q} hp hq hne => ?_
  intro f hf hg
  unfold files at hf hg
  rw [(hb p hp).1] at hf
  rw [(hb q hq).1] at hg
  have cut : ∀ s t u : List Char, ∀ a b, s ++ '/' :: (t ++ (a ++ '.' :: r.ext)) = s ++ '/' :: (u ++ (b ++ '.' :: r.ext)) →
      t ++ a = u ++ b := by
    intro s t u a b he
    have he := List.append_cancel_left he
    simp only [List.cons.injEq, true_and] at he
    rw [← List.append_assoc, ← List.append_assoc] at he
    exact List.append_cancel_right he
  by_cases he : r.explode = true
  · rw [if_pos he] at hf hg
    obtain ⟨x, hx, rfl⟩ := List.mem_map.1 hf
    obtain ⟨y, hy, hyx⟩ := List.mem_map.1 hg
    unfold file at hyx
    rw [hd p hp, hd q hq] at hyx
    exact hne ('_' :: x) ('_' :: y) (.inr ⟨x, hx, y, hy, rfl, rfl⟩) (cut _ _ _ _ _ hyx).symm
  · rw [if_neg he] at hf hg
    obtain rfl := List.mem_singleton.1 hf
    have hg := List.mem_singleton.1 hg
    unfold file at hg
    rw [hd p hp, hd q hq] at hg
    exact hne [] [] (.inl ⟨by simpa using he, rfl, rfl⟩) (cut _ _ _ _ _ hg)

/-- C264: continuous field ImproPhe, if the names of the fields differ before the first dot. -/
theorem c264_fields_partial (r : Run) (fields : List (List Char)) (years : List Int) (h : (fields.map base).Nodup)
    (hy : years.Nodup) (hr : ∀ y ∈ years, 1900 ≤ y ∧ y ≤ 2100) : (written r (cfi r fields years)).Nodup := by
  refine written_nodup_dir r (dirName r ⟨"IMP".toList, true, [], false, []⟩) _ ?_ ?_ ?_
  · intro p hp
    obtain ⟨f, -, rfl⟩ := List.mem_map.1 hp
    rfl
  · intro p hp
    obtain ⟨f, -, rfl⟩ := List.mem_map.1 hp
    refine ⟨rfl, fun _ => List.Nodup.map_on ?_ hy⟩
    intro a ha b hb hab
    have ha := hr a ha
    have hb := hr b hb
    exact fmt4_inj a b (by omega) (by omega) (List.append_cancel_left hab)
  · unfold cfi
    rw [List.pairwise_map]
    have h' : fields.Pairwise fun p q => base p ≠ base q := by
      unfold List.Nodup at h
      rwa [List.pairwise_map] at h
    refine h'.imp fun {p q} hne a b hab he => hne ?_
    have hlen : a.length = b.length := by
      rcases hab with ⟨-, rfl, rfl⟩ | ⟨x, hx, y, hy, rfl, rfl⟩
      · rfl
      · obtain ⟨u, hu, rfl⟩ := List.mem_map.1 hx
        obtain ⟨v, hv, rfl⟩ := List.mem_map.1 hy
        have hu := hr u hu
        have hv := hr v hv
        simp only [List.length_cons, List.length_append]
        rw [(Tsa.fmt_pad 4 u (by omega) (by omega)).2.2, (Tsa.fmt_pad 4 v (by omega) (by omega)).2.2]
    simp only at he
    obtain ⟨h1, -⟩ := List.append_inj' he hlen
    exact List.append_cancel_right h1

/-- C264: Level 2 ImproPhe, if two images are not of the same day and sensor. -/
theorem c264_improphe (r : Run) (images : List Shot) (bands : List (List Char))
    (h : images.Pairwise fun a b => ¬ (a.y = b.y ∧ a.m = b.m ∧ a.d = b.d ∧ a.sensor = b.sensor))
    (hi : ∀ a ∈ images, (0 ≤ a.y ∧ a.y ≤ 9999) ∧ (1 ≤ a.m ∧ a.m ≤ 12) ∧ (1 ≤ a.d ∧ a.d ≤ 31) ∧ '_' ∉ a.sensor)
    (hb : bands.Nodup) : (written r (l2i r images bands)).Nodup := by
  refine written_nodup_dir r (dirName r ⟨"IMP".toList, false, [], false, []⟩) _ ?_ ?_ ?_
  · intro p hp
    obtain ⟨f, -, rfl⟩ := List.mem_map.1 hp
    rfl
  · intro p hp
    obtain ⟨f, -, rfl⟩ := List.mem_map.1 hp
    exact ⟨rfl, fun _ => hb⟩
  · unfold l2i
    rw [List.pairwise_map]
    refine h.imp_of_mem fun {p q} hp hq hne a b _ he => hne ?_
    obtain ⟨p1, p2, p3, p4⟩ := hi p hp
    obtain ⟨q1, q2, q3, q4⟩ := hi q hq
    simp only [List.append_assoc, List.cons_append] at he
    obtain ⟨⟨e1, e2, e3⟩, e4⟩ := Tsa.compact_inj _ _ _ _ _ _ _ _
      (⟨p1, ⟨by omega, by omega⟩, by omega, by omega⟩ : Tsa.Plain p.y p.m p.d)
      (⟨q1, ⟨by omega, by omega⟩, by omega, by omega⟩ : Tsa.Plain q.y q.m q.d) he
    have e4 := List.append_cancel_left e4
    exact ⟨e1, e2, e3, (Tsa.split_first '_' _ _ _ _ p4 q4 e4).1⟩

/-- C264: user code, if the bands of each of the two have different names. -/
theorem c264_user (r : Run) (p : Period) (target : List Char) (py rs : Bool × List (List Char)) (h1 : py.2.Nodup)
    (h2 : rs.2.Nodup) : (written r (udf r p target py rs)).Nodup := by
  unfold udf
  refine written_enabled r (p.text ++ ("_HL_UDF_".toList ++ (target ++ ['_']))) _ 3 ?_ ?_ ?_
  · intro x hx
    simp only [List.mem_cons, List.not_mem_nil, or_false] at hx
    rcases hx with rfl | rfl <;> exact ⟨rfl, rfl, rfl⟩
  · show (["PYP".toList, "RSP".toList] : List (List Char)).Nodup
    decide +kernel
  · intro x hx _ he
    simp only [List.mem_cons, List.not_mem_nil, or_false] at hx
    rcases hx with rfl | rfl
    · exact h1
    · exact h2

end Verif.Naming
