import Verif.Tsa.Props

/-!
# Theorems about file names: C204
-/

namespace Verif.Tsa

open Spec

theorem split_first (c : Char) (x y a b : List Char) (hx : c ∉ x) (hy : c ∉ y) (h : x ++ c :: a = y ++ c :: b) :
    x = y ∧ a = b := by
  induction x generalizing y with
  | nil =>
    cases y with
    | nil => simpa using h
    | cons d y =>
      simp only [List.nil_append, List.cons_append, List.cons.injEq] at h
      exact absurd (List.mem_cons.2 (.inl h.1)) hy
  | cons e x ih =>
    cases y with
    | nil =>
      simp only [List.nil_append, List.cons_append, List.cons.injEq] at h
      exact absurd (List.mem_cons.2 (.inl h.1.symm)) hx
    | cons d y =>
      simp only [List.cons_append, List.cons.injEq] at h
      obtain ⟨h1, h2⟩ := h
      obtain ⟨h3, h4⟩ := ih y (fun hm => hx (.tail _ hm)) (fun hm => hy (.tail _ hm)) h2
      exact ⟨by rw [h1, h3], h4⟩

theorem split_last (c : Char) (x y a b : List Char) (ha : c ∉ a) (hb : c ∉ b) (h : x ++ c :: a = y ++ c :: b) :
    x = y ∧ a = b := by
  have h' : a.reverse ++ c :: x.reverse = b.reverse ++ c :: y.reverse := by
    have := congrArg List.reverse h
    simpa using this
  obtain ⟨h1, h2⟩ := split_first c _ _ _ _ (by simpa using ha) (by simpa using hb) h'
  exact ⟨List.reverse_inj.1 h2, List.reverse_inj.1 h1⟩

theorem written_sub (p : Par) : (written p).Sublist (infos p) :=
  List.filter_sublist.trans List.filter_sublist

theorem written_plain (p : Par) (o : Info) (h : o ∈ written p) : '_' ∉ o.name.toList := by
  refine names_plain _ ?_
  rw [← infos_names p]
  exact List.mem_map.2 ⟨o, (written_sub p).subset h, rfl⟩

theorem written_nodup (p : Par) : ((written p).map fun o => o.name.toList).Nodup := by
  have h : ((infos p).map fun o => o.name.toList).Nodup := by
    have := names_nodup
    rw [← infos_names p, List.map_map] at this
    exact this
  exact h.sublist ((written_sub p).map _)

theorem toList_nodup (l : List String) (h : l.Nodup) : (l.map String.toList).Nodup :=
  (List.nodup_map_iff (fun a b h => String.toList_inj.1 h)).2 h

/-- C204: for every set of requested products and every set of different indices, all products have
different file names, whatever the common beginning of the names. -/
theorem c204_files (pre : List Char) (p : Par) (h : p.indices.Nodup) : (files pre p).Nodup := by
  unfold files
  rw [List.nodup_flatMap]
  constructor
  · intro i _
    have hw := written_nodup p
    unfold List.Nodup at hw ⊢
    rw [List.pairwise_map] at hw ⊢
    exact hw.imp fun {a b} hab he => hab (by
      have := List.append_cancel_left he
      simpa using this)
  · refine h.imp_of_mem fun {i j} _ _ hij => ?_
    rintro s hs hs'
    obtain ⟨a, ha, rfl⟩ := List.mem_map.1 hs
    obtain ⟨b, hb, he⟩ := List.mem_map.1 hs'
    have := (split_last '_' _ _ _ _ (written_plain p b hb) (written_plain p a ha) he).1
    exact hij (String.toList_inj.1 (List.append_cancel_left this).symm)

/-! ## Labels -/

theorem fmt_pad (w : Nat) (v : Int) (h0 : 0 ≤ v) (h1 : v < 10 ^ w) :
    Libc.fmtInt0 w v = Libc.padDigits w v.toNat ∧ Libc.natVal (Libc.fmtInt0 w v) = v.toNat ∧
      (Libc.fmtInt0 w v).length = w := by
  have hlt : v.toNat < 10 ^ w := by
    have : ((v.toNat : Int)) < ((10 ^ w : Nat) : Int) := by rw [Int.toNat_of_nonneg h0]; exact_mod_cast h1
    exact_mod_cast this
  have e : Libc.fmtInt0 w v = Libc.padDigits w v.toNat := by
    have ha : v.natAbs = v.toNat := by omega
    rw [Libc.fmtInt0, if_neg (by omega), Libc.fmtNat0, ha, if_pos hlt]
  refine ⟨e, ?_, ?_⟩
  · rw [e, Libc.natVal_padDigits, Nat.mod_eq_of_lt hlt]
  · rw [e, Libc.padDigits_length]

theorem fmt_inj (w : Nat) (v u : Int) (h0 : 0 ≤ v) (h1 : v < 10 ^ w) (k0 : 0 ≤ u) (k1 : u < 10 ^ w)
    (h : Libc.fmtInt0 w v = Libc.fmtInt0 w u) : v = u := by
  have a := (fmt_pad w v h0 h1).2.1
  have b := (fmt_pad w u k0 k1).2.1
  rw [h, b] at a
  omega

/-- The date is one with four digits for the year. -/
def Plain (y m d : Int) : Prop := (0 ≤ y ∧ y ≤ 9999) ∧ (0 ≤ m ∧ m ≤ 99) ∧ 0 ≤ d ∧ d ≤ 99

theorem compact_inj (y m d y' m' d' : Int) (s s' : List Char) (h : Plain y m d) (h' : Plain y' m' d')
    (he : compact y m d ++ s = compact y' m' d' ++ s') : (y = y' ∧ m = m' ∧ d = d') ∧ s = s' := by
  obtain ⟨⟨a1, a2⟩, ⟨a3, a4⟩, a5, a6⟩ := h
  obtain ⟨⟨b1, b2⟩, ⟨b3, b4⟩, b5, b6⟩ := h'
  unfold compact at he
  simp only [List.append_assoc] at he
  have l4 : ∀ v : Int, 0 ≤ v → v ≤ 9999 → (Libc.fmtInt0 4 v).length = 4 := fun v h0 h1 => (fmt_pad 4 v h0 (by omega)).2.2
  have l2 : ∀ v : Int, 0 ≤ v → v ≤ 99 → (Libc.fmtInt0 2 v).length = 2 := fun v h0 h1 => (fmt_pad 2 v h0 (by omega)).2.2
  obtain ⟨e1, he⟩ := List.append_inj he (by rw [l4 y a1 a2, l4 y' b1 b2])
  obtain ⟨e2, he⟩ := List.append_inj he (by rw [l2 m a3 a4, l2 m' b3 b4])
  obtain ⟨e3, he⟩ := List.append_inj he (by rw [l2 d a5 a6, l2 d' b5 b6])
  exact ⟨⟨fmt_inj 4 y y' a1 (by omega) b1 (by omega) e1, fmt_inj 2 m m' a3 (by omega) b3 (by omega) e2,
    fmt_inj 2 d d' a5 (by omega) b5 (by omega) e3⟩, he⟩

theorem range_get (images : List Image) :
    ((List.range images.length).map fun t => images[t]?.map imageLabel) = images.map fun im => some (imageLabel im) := by
  apply List.ext_getElem?
  intro i
  simp only [List.getElem?_map]
  by_cases h : i < images.length
  · simp [h]
  · simp [List.getElem?_eq_none (show (List.range images.length).length ≤ i by simpa using h),
      List.getElem?_eq_none (show images.length ≤ i by omega)]

theorem images_nodup (images : List Image)
    (hi : ∀ im ∈ images, Plain im.date.year im.date.month im.date.day)
    (hd : images.Pairwise fun a b =>
      ¬ (a.date.year = b.date.year ∧ a.date.month = b.date.month ∧ a.date.day = b.date.day ∧ a.sensor = b.sensor)) :
    (images.map fun im => some (imageLabel im)).Nodup := by
  unfold List.Nodup
  rw [List.pairwise_map]
  refine hd.imp_of_mem fun {a b} ha hb hab he => hab ?_
  have he := Option.some.inj he
  obtain ⟨⟨h1, h2, h3⟩, h4⟩ := compact_inj _ _ _ _ _ _ _ _ (hi a ha) (hi b hb) he
  exact ⟨h1, h2, h3, (List.cons.inj h4).2⟩

theorem year_range (ce : Int) (h : 365 < ce) (h2 : ce ≤ 9999 * 365 + 365) :
    Plain (Date.ce2date ce).1 (Date.ce2date ce).2.1 (Date.ce2date ce).2.2 := by
  obtain ⟨y, m, d, e, hv, hc, -⟩ := Date.c02_ce_date_ce ce
  have hr := Date.dayOfYear_range hv
  have hm := Date.md2doy_eq (d := d) hv.1 hv.2.1
  rw [Date.date2ce, hm] at hc
  rw [e]
  have hl : Date.Spec.monthLength m ≤ 31 := by
    have h1 := hv.1
    have h2 := hv.2.1
    have : m = 1 ∨ m = 2 ∨ m = 3 ∨ m = 4 ∨ m = 5 ∨ m = 6 ∨ m = 7 ∨ m = 8 ∨ m = 9 ∨ m = 10 ∨ m = 11 ∨ m = 12 := by omega
    rcases this with rfl | rfl | rfl | rfl | rfl | rfl | rfl | rfl | rfl | rfl | rfl | rfl <;> decide
  obtain ⟨h3, h4, h5, h6⟩ := hv
  refine ⟨⟨?_, ?_⟩, ⟨?_, ?_⟩, ?_, ?_⟩ <;> dsimp only <;> omega

theorem setCe_fields (d : Date.DateT) (ce : Int) : (Date.setCe d ce).year = (Date.ce2date ce).1 ∧
    (Date.setCe d ce).month = (Date.ce2date ce).2.1 ∧ (Date.setCe d ce).day = (Date.ce2date ce).2.2 := ⟨rfl, rfl, rfl⟩

theorem inter_nodup (images : List Image) (m : Method) (dmin dmax step : Int) (hm : m ≠ .none) (h0 : 365 < dmin)
    (h1 : dmin ≤ dmax) (h2 : dmax ≤ 9999 * 365 + 365) (hs : 1 ≤ step) :
    ((List.range (interSteps m images.length dmin dmax step)).map fun t =>
      (interLabelDate m images dmin step t).map fun d => compact d.year d.month d.day).Nodup := by
  unfold List.Nodup
  rw [List.pairwise_map]
  have hn : ∀ t, t < interSteps m images.length dmin dmax step → dmin + t * step ≤ dmax := by
    intro t ht
    rw [interSteps, if_neg hm] at ht
    obtain ⟨e1, e2⟩ := toNat_tdiv (dmax - dmin + 1) step (by omega)
    have hq : 0 ≤ (dmax - dmin + 1) / step := Int.ediv_nonneg (by omega) (by omega)
    rw [max_eq_left hq] at e1
    have h3 : (t : Int) + 1 ≤ (dmax - dmin + 1) / step := by rw [← e1]; exact_mod_cast ht
    have h4 : ((t : Int) + 1) * step ≤ ((dmax - dmin + 1) / step) * step := Int.mul_le_mul_of_nonneg_right h3 (by omega)
    have h5 := Int.ediv_mul_le (dmax - dmin + 1) (show step ≠ 0 by omega)
    have h6 : ((t : Int) + 1) * step = t * step + step := by rw [Int.add_mul, Int.one_mul]
    omega
  refine (List.pairwise_lt_range (n := interSteps m images.length dmin dmax step)).imp_of_mem fun {a b} ha hb hab he => ?_
  simp only [interLabelDate, if_neg hm, Option.map_some, Option.some.injEq] at he
  have pa : 0 ≤ (a : Int) * step := Int.mul_nonneg (by omega) (by omega)
  have pb : 0 ≤ (b : Int) * step := Int.mul_nonneg (by omega) (by omega)
  have ra := hn a (List.mem_range.1 ha)
  have rb := hn b (List.mem_range.1 hb)
  obtain ⟨s1, s2, s3⟩ := setCe_fields Date.initDate (dmin + a * step)
  obtain ⟨t1, t2, t3⟩ := setCe_fields Date.initDate (dmin + b * step)
  rw [s1, s2, s3, t1, t2, t3] at he
  obtain ⟨⟨e1, e2, e3⟩, -⟩ := compact_inj _ _ _ _ _ _ [] [] (year_range (dmin + a * step) (by omega) (by omega))
    (year_range (dmin + b * step) (by omega) (by omega)) (by simpa using he)
  obtain ⟨y, m', d, f1, -, f2, -⟩ := Date.c02_ce_date_ce (dmin + a * step)
  obtain ⟨y', m'', d', g1, -, g2, -⟩ := Date.c02_ce_date_ce (dmin + b * step)
  rw [f1, g1] at e1 e2 e3
  dsimp only at e1 e2 e3
  subst e1 e2 e3
  rw [f2] at g2
  have : (a : Int) * step < b * step := Int.mul_lt_mul_of_pos_right (by exact_mod_cast hab) (by omega)
  omega

theorem year_nodup (ymin : Int) (n : Nat) (h0 : 0 ≤ ymin) (h1 : ymin + n ≤ 10000) :
    ((List.range n).map fun t => some (yearLabel ymin t)).Nodup := by
  unfold List.Nodup
  rw [List.pairwise_map]
  refine (List.pairwise_lt_range (n := n)).imp_of_mem fun {a b} ha hb hab he => ?_
  have he := List.append_cancel_left (Option.some.inj he)
  have ha := List.mem_range.1 ha
  have hb := List.mem_range.1 hb
  have e : ∀ t : Nat, (Date.setYear (Date.setDate Date.initDate 2000 1 1) (ymin + t)).year = ymin + t := fun t => rfl
  rw [e, e] at he
  have := fmt_inj 4 _ _ (by omega) (by omega) (by omega) (by omega) he
  omega

theorem interval_nodup (k n : Nat) : (Season.Spec.interval k n).Nodup := by
  unfold Season.Spec.interval List.Nodup
  rw [List.pairwise_map]
  exact (List.pairwise_lt_range (n := n)).imp fun hab => by omega

theorem season_nodup (tag : List Char) (w n : Nat) (sel : Int → Bool) (f : Int → Int) (hn : (n : Int) < 10 ^ w)
    (hf : ∀ k ∈ Season.Spec.interval 1 n, f k = k) :
    (((Season.Spec.interval 1 n).filter sel).map fun k => some (tag ++ Libc.fmtInt0 w (f k))).Nodup := by
  unfold List.Nodup
  rw [List.pairwise_map]
  have hd : ((Season.Spec.interval 1 n).filter sel).Nodup := (interval_nodup 1 n).sublist List.filter_sublist
  refine hd.imp_of_mem fun {a b} ha hb hab he => hab ?_
  have ha := (List.mem_filter.1 ha).1
  have hb := (List.mem_filter.1 hb).1
  have he := List.append_cancel_left (Option.some.inj he)
  rw [hf a ha, hf b hb] at he
  have r : ∀ k ∈ Season.Spec.interval 1 n, 0 ≤ k ∧ k ≤ n := by
    intro k hk
    obtain ⟨i, hi, rfl⟩ := List.mem_map.1 hk
    have := List.mem_range.1 hi
    omega
  have ra := r a ha
  have rb := r b hb
  exact fmt_inj w a b ra.1 (by omega) rb.1 (by omega) he

theorem quarters_id : ∀ k ∈ Season.Spec.interval 1 4, (Date.setQuarter start k).quarter = k := by decide +kernel
theorem months_id : ∀ k ∈ Season.Spec.interval 1 12, (Date.setMonth start k).month = k := by decide +kernel
theorem weeks_id : ∀ k ∈ Season.Spec.interval 1 52, (Date.setWeek start k).week = k := by decide +kernel
theorem days_id : ∀ k ∈ Season.Spec.interval 1 365, (Date.setDoy start k).doy = k := by decide +kernel

theorem some_nodup (l : List (List Char)) (h : l.Nodup) : (l.map some).Nodup :=
  (List.nodup_map_iff (Option.some_injective _)).2 h

theorem trd_nodup : (trdTags.map fun s => some s.toList).Nodup := by decide +kernel
theorem cat_nodup : (catTags.map fun s => some s.toList).Nodup := by decide +kernel

/-- The context of a run with interpolation: years with four digits, different images, different
metrics, a season. -/
structure Regular (c : Ctx) : Prop where
  images : ∀ im ∈ c.images, (0 ≤ im.date.year ∧ im.date.year ≤ 9999) ∧ (0 ≤ im.date.month ∧ im.date.month ≤ 99) ∧
    0 ≤ im.date.day ∧ im.date.day ≤ 99
  distinct : c.images.Pairwise fun a b =>
    ¬ (a.date.year = b.date.year ∧ a.date.month = b.date.month ∧ a.date.day = b.date.day ∧ a.sensor = b.sensor)
  dmin : 1 ≤ c.dmin.year ∧ 365 < c.dmin.ce
  dmax : c.dmax.year ≤ 9999 ∧ c.dmax.ce ≤ 9999 * 365 + 365
  order : c.dmin.ce ≤ c.dmax.ce
  step : 1 ≤ c.step
  metrics : c.metrics.Nodup ∧ c.umetrics.Nodup
  season : ∃ lo hi, c.win = Season.window lo hi

theorem labels_nodup (c : Ctx) (h : Regular c) (hm : c.method ≠ .none) (k : Kind) : (labels c k).Nodup := by
  obtain ⟨lo, hi, hw⟩ := h.season
  obtain ⟨l1, l2, l3, l4⟩ := Season.c50_labels lo hi
  have hy : (((List.range (c.dmax.year - c.dmin.year + 1).toNat).map fun t => some (yearLabel c.dmin.year t)).Nodup) := by
    by_cases hneg : c.dmax.year - c.dmin.year + 1 ≤ 0
    · rw [Int.toNat_of_nonpos hneg]; simp
    · exact year_nodup _ _ (by have := h.dmin.1; omega) (by have := h.dmax.1; omega)
  have hf := images_nodup c.images h.images h.distinct
  cases k
  · unfold labels; dsimp only; rw [range_get]; exact hf
  · exact some_nodup _ h.metrics.1
  · exact inter_nodup _ _ _ _ _ hm h.dmin.2 h.order h.dmax.2 h.step
  · unfold labels
    dsimp only
    rw [nrtLabelled_eq _ _ (by unfold forecastCount; split <;> [exact List.countP_le_length; omega]), List.map_map]
    exact hf.sublist ((List.drop_sublist _ _).map _)
  · exact hy
  · unfold labels; dsimp only; rw [hw, l4]; exact season_nodup _ 1 4 _ _ (by decide) quarters_id
  · unfold labels; dsimp only; rw [hw, l3]; exact season_nodup _ 2 12 _ _ (by decide) months_id
  · unfold labels; dsimp only; rw [hw, l2]; exact season_nodup _ 2 52 _ _ (by decide) weeks_id
  · unfold labels; dsimp only; rw [hw, l1]; exact season_nodup _ 3 365 _ _ (by decide) days_id
  · exact hy
  · exact trd_nodup
  · exact cat_nodup
  · exact some_nodup _ h.metrics.2

/-- C204: the name of each band is defined. -/
theorem labels_some (c : Ctx) (k : Kind) : ∀ l ∈ labels c k, ∃ a, l = some a := by
  have hmap : ∀ {α : Type} (xs : List α) (f : α → List Char), ∀ l ∈ xs.map fun x => some (f x), ∃ a, l = some a := by
    intro α xs f l hl
    obtain ⟨x, -, rfl⟩ := List.mem_map.1 hl
    exact ⟨_, rfl⟩
  cases k
  case full => unfold labels; dsimp only; rw [range_get]; exact hmap _ _
  case nrt =>
    unfold labels
    dsimp only
    rw [nrtLabelled_eq _ _ (by unfold forecastCount; split <;> [exact List.countP_le_length; omega]), List.map_map]
    exact hmap _ _
  case inter =>
    intro l hl
    obtain ⟨t, ht, rfl⟩ := List.mem_map.1 hl
    by_cases hm : c.method = .none
    · have hlt : t < c.images.length := by simpa [interSteps, hm] using ht
      exact ⟨_, by rw [interLabelDate, if_pos hm, List.getElem?_eq_getElem hlt]; rfl⟩
    · exact ⟨_, by rw [interLabelDate, if_neg hm]; rfl⟩
  all_goals exact hmap _ _

theorem map_option_nodup (g : List Char → List Char) (hg : ∀ a b, g a = g b → a = b) (l : List (Option (List Char)))
    (h : l.Nodup) : (l.map fun x => x.map g).Nodup :=
  (List.nodup_map_iff (Option.map_injective fun a b => hg a b)).2 h

/-- C204 (partial: with interpolation): if each band is written to its own file, all bands of all
products of all indices have different file names. -/
theorem c204_bands_partial (pre : List Char) (p : Par) (c : Ctx) (hi : p.indices.Nodup)
    (hu : ∀ i ∈ p.indices, '_' ∉ i.toList) (h : Regular c) (hm : c.method ≠ .none) :
    (bandFiles pre p c).Nodup := by
  have key : ∀ (i j : String) (o u : Info) (a b : List Char), i ∈ p.indices → j ∈ p.indices → o ∈ written p →
      u ∈ written p → fileName pre i.toList o.name.toList ++ '_' :: a = fileName pre j.toList u.name.toList ++ '_' :: b →
      i = j ∧ o.name.toList = u.name.toList ∧ a = b := by
    intro i j o u a b h1 h2 h3 h4 he
    unfold fileName at he
    simp only [List.append_assoc, List.cons_append] at he
    have he := List.append_cancel_left he
    obtain ⟨e1, he⟩ := split_first '_' _ _ _ _ (hu i h1) (hu j h2) he
    obtain ⟨e2, he⟩ := split_first '_' _ _ _ _ (written_plain p o h3) (written_plain p u h4) he
    exact ⟨String.toList_inj.1 e1, e2, he⟩
  have mem : ∀ (i : String) (o : Info) (s : Option (List Char)),
      s ∈ ((labels c o.kind).map fun l => l.map fun l => fileName pre i.toList o.name.toList ++ '_' :: l) →
      ∃ a, s = some (fileName pre i.toList o.name.toList ++ '_' :: a) := by
    intro i o s hs
    obtain ⟨l, hl, rfl⟩ := List.mem_map.1 hs
    obtain ⟨a, rfl⟩ := labels_some c o.kind l hl
    exact ⟨a, rfl⟩
  unfold bandFiles
  rw [List.nodup_flatMap]
  constructor
  · intro i hii
    rw [List.nodup_flatMap]
    constructor
    · intro o _
      exact map_option_nodup _ (fun a b e => by simpa using List.append_cancel_left e) _ (labels_nodup c h hm o.kind)
    · have hw := written_nodup p
      unfold List.Nodup at hw
      rw [List.pairwise_map] at hw
      refine hw.imp_of_mem fun {o u} ho hu' hou => ?_
      rintro s hs hs'
      obtain ⟨a, rfl⟩ := mem i o s hs
      obtain ⟨b, hb⟩ := mem i u _ hs'
      exact hou (key i i o u a b hii hii ho hu' (Option.some.inj hb)).2.1
  · refine hi.imp_of_mem fun {i j} h1 h2 hij => ?_
    rintro s hs hs'
    obtain ⟨o, ho, hs⟩ := List.mem_flatMap.1 hs
    obtain ⟨u, hu', hs'⟩ := List.mem_flatMap.1 hs'
    obtain ⟨a, rfl⟩ := mem i o s hs
    obtain ⟨b, hb⟩ := mem j u _ hs'
    exact hij (key i j o u a b h1 h2 ho hu' (Option.some.inj hb)).1

/-- C204, violated: without interpolation, two images of one day (of two sensors, say) give two bands of
the product TSI with the same file name. -/
theorem c204_bands_violated (pre : List Char) (p : Par) (c : Ctx) (i : String) (hi : i ∈ p.indices) (ho : p.otsi = true)
    (hm : c.method = .none) (s t : Nat) (hst : s < t) (a b : Image) (ha : c.images[s]? = some a)
    (hb : c.images[t]? = some b)
    (hd : a.date.year = b.date.year ∧ a.date.month = b.date.month ∧ a.date.day = b.date.day) :
    ¬ (bandFiles pre p c).Nodup := by
  intro hn
  unfold bandFiles at hn
  rw [List.nodup_flatMap] at hn
  have hn := hn.1 i hi
  rw [List.nodup_flatMap] at hn
  have hw : (⟨"TSI", .inter, true, p.otsi⟩ : Info) ∈ written p := by
    unfold written computed
    rw [List.mem_filter, List.mem_filter]
    exact ⟨⟨by simp [infos], rfl⟩, ho⟩
  have hn := hn.1 _ hw
  have hlt : t < c.images.length := (List.getElem?_eq_some_iff.1 hb).1
  have hls : s < c.images.length := by omega
  have get : ∀ (r : Nat) (im : Image), r < c.images.length → c.images[r]? = some im →
      (labels c .inter)[r]? = some (some (compact im.date.year im.date.month im.date.day)) := by
    intro r im hr him
    unfold labels
    dsimp only
    rw [List.getElem?_map, interSteps, if_pos hm, List.getElem?_range hr, Option.map_some, interLabelDate, if_pos hm, him]
    rfl
  have hlen : (labels c .inter).length = c.images.length := by
    unfold labels
    simp [interSteps, hm]
  unfold List.Nodup at hn
  rw [List.pairwise_map] at hn
  have g1 := get s a hls ha
  have g2 := get t b hlt hb
  rw [List.pairwise_iff_getElem] at hn
  have := hn s t (by dsimp only; omega) (by dsimp only; omega) hst
  apply this
  have e1 := (List.getElem?_eq_some_iff.1 g1).2
  have e2 := (List.getElem?_eq_some_iff.1 g2).2
  dsimp only
  rw [e1, e2, hd.1, hd.2.1, hd.2.2]

end Verif.Tsa
