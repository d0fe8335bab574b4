import Verif.Ccl.Scan

/-! # Segmentation of binary images: properties -/

namespace Verif.Ccl

open Spec

/-- The pixels of an image that are set. -/
def Image.SetAt (m : Image) (p : Int × Int) : Prop :=
  (0 ≤ p.1 ∧ p.1 < m.ny ∧ 0 ≤ p.2 ∧ p.2 < m.nx) ∧ m.px p = true

theorem setAt_iff (m : Image) (p : Px) : m.SetAt p ↔ m.val p = true := by
  simp only [Image.SetAt, Image.val, Image.inside, Bool.and_eq_true, decide_eq_true_eq]
  tauto

theorem setAt_eq (m : Image) : m.SetAt = Fg m.val := funext fun p => propext (setAt_iff m p)

theorem val_false {m : Image} {p : Px} (h : ¬ m.SetAt p) : m.val p = false := by
  rw [setAt_iff] at h; simpa using h

theorem connected_set {F : Px → Bool} {p q : Px} (h : Connected (Fg F) p q) : F q = true := by
  obtain ⟨hp, hc⟩ := h
  induction hc with
  | refl => exact hp
  | tail _ hbc _ => exact hbc.2

theorem first_unique {F : Px → Bool} {x y : Px} (hx : First (Fg F) x) (hy : First (Fg F) y)
    (h : Connected (Fg F) x y) : x = y := by
  rcases before_total x y with hb | hb | hb
  · exact absurd hb (hy.2 x (connected_symm h))
  · exact hb
  · exact absurd hb (hx.2 y h)

theorem seed_inj {k : Int} {sd : Int → Px} (ho : ∀ l l', 1 ≤ l → l < l' → l' ≤ k → Before (sd l) (sd l'))
    {l l' : Int} (h1 : 1 ≤ l) (h2 : l ≤ k) (h1' : 1 ≤ l') (h2' : l' ≤ k) (e : sd l = sd l') : l = l' := by
  rcases lt_trichotomy l l' with h | h | h
  · have := ho l l' h1 h h2'; rw [e] at this; exact absurd this (before_irrefl _)
  · exact h
  · have := ho l' l h1' h h2; rw [e] at this; exact absurd this (before_irrefl _)

/-- C85: for every image, the segmentation ends, and its labels are exactly the segments (8-neighbourhood):
unset pixels have 0, set pixels one of the labels 1 to `k`, two of them the same if and only if a path of set
pixels connects them; every label is used, and the labels follow the order of the first pixels of the
segments. -/
theorem c85_segments (m : Image) : ∃ (N : Nat) (k : Int) (lab : Int × Int → Int),
    (∀ fuel, N ≤ fuel → components m fuel (fun _ => 0) = some (k, lab)) ∧
    (∀ p, ¬ m.SetAt p → lab p = 0) ∧
    (∀ p, m.SetAt p → 1 ≤ lab p ∧ lab p ≤ k) ∧
    (∀ p q, m.SetAt p → m.SetAt q → (lab p = lab q ↔ Connected m.SetAt p q)) ∧
    (∀ l, 1 ≤ l → l ≤ k → ∃ p, First m.SetAt p ∧ lab p = l) ∧
    (∀ p q, First m.SetAt p → First m.SetAt q → Before p q → lab p < lab q) := by
  obtain ⟨N, k, lab, sd, hN, hk, h0, h1, hs, ho, ha⟩ := components_spec m
  rw [setAt_eq]
  have hfirst : ∀ l, 1 ≤ l → l ≤ k → lab (sd l) = l := by
    intro l a b
    obtain ⟨c1, c2, c3⟩ := h1 (sd l) (hs l a b).1
    exact seed_inj ho c1 c2 a b (first_unique (hs _ c1 c2) (hs l a b) c3)
  refine ⟨N, k, lab, hN, ?_, ?_, ?_, ?_, ?_⟩
  · intro p hp; exact h0 p (by simpa using hp)
  · intro p hp; obtain ⟨a, b, _⟩ := h1 p hp; exact ⟨a, b⟩
  · intro p q hp hq
    obtain ⟨a, b, c⟩ := h1 p hp
    obtain ⟨a', b', c'⟩ := h1 q hq
    constructor
    · intro e
      rw [← e] at c'
      exact connected_trans (connected_symm c) c'
    · intro e
      refine seed_inj ho a b a' b' (first_unique (hs _ a b) (hs _ a' b') ?_)
      exact connected_trans c (connected_trans e (connected_symm c'))
  · intro l a b; exact ⟨sd l, hs l a b, hfirst l a b⟩
  · intro p q hp hq hb
    obtain ⟨l, a, b, rfl⟩ := ha p hp
    obtain ⟨l', a', b', rfl⟩ := ha q hq
    rw [hfirst l a b, hfirst l' a' b']
    rcases lt_trichotomy l l' with h | h | h
    · exact h
    · rw [h] at hb; exact absurd hb (before_irrefl _)
    · exact absurd (before_trans hb (ho l' l a' h b)) (before_irrefl _)

theorem mem_pixels (m : Image) (p : Px) : p ∈ pixels m ↔ m.inside p = true := by
  obtain ⟨y, x⟩ := p
  simp only [pixels, List.mem_flatMap, List.mem_range, List.mem_map, Prod.mk.injEq, Image.inside, Bool.and_eq_true,
    decide_eq_true_eq]
  constructor
  · rintro ⟨i, hi, j, hj, rfl, rfl⟩; omega
  · rintro ⟨⟨⟨h1, h2⟩, h3⟩, h4⟩
    exact ⟨y.toNat, by omega, x.toNat, by omega, by omega, by omega⟩

theorem nodup_pixels (m : Image) : (pixels m).Nodup := by
  unfold pixels
  rw [List.nodup_flatMap]
  refine ⟨fun i _ => ?_, ?_⟩
  · refine List.Nodup.map ?_ List.nodup_range
    intro a b e
    simpa using e
  · refine List.nodup_range.imp ?_
    intro a b hab
    simp only [Function.onFun, List.disjoint_left, List.mem_map, List.mem_range, Prod.exists, not_exists, not_and]
    rintro ⟨y, x⟩ ⟨j, _, e⟩ j' _ e'
    simp only [Prod.mk.injEq] at e e'
    omega

theorem sizes_fold (m : Image) (no : Int) (ccl : Px → Int) (l : List Px)
    (h : ∀ p ∈ l, m.px p = true → 1 ≤ ccl p ∧ ccl p ≤ no) (a : Int → Int) :
    l.foldlM (fun a p =>
      if m.px p then
        if 1 ≤ ccl p ∧ ccl p ≤ no then some (fun l => if l = ccl p then a l + 1 else a l) else none
      else some a) a =
      some (fun i => a i + ((l.filter fun p => m.px p && decide (ccl p = i)).length : Int)) := by
  induction l generalizing a with
  | nil => simp
  | cons p l ih =>
    rw [List.foldlM_cons]
    cases hp : m.px p with
    | false =>
      simp only [Bool.false_eq_true, if_false, Option.bind_eq_bind, Option.bind_some]
      rw [ih (fun q hq => h q (List.mem_cons_of_mem _ hq))]
      simp [hp]
    | true =>
      simp only [if_true]
      rw [if_pos (h p (List.mem_cons_self ..) hp)]
      simp only [Option.bind_eq_bind, Option.bind_some]
      rw [ih (fun q hq => h q (List.mem_cons_of_mem _ hq))]
      congr 1
      funext i
      by_cases hi : i = ccl p
      · subst hi; simp [hp]; omega
      · have hi' : ¬ ccl p = i := fun e => hi e.symm
        simp [hp, hi, hi']

theorem ncard_filter (l : List Px) (hl : l.Nodup) (P : Px → Bool) (S : Set Px) (h : ∀ q, q ∈ S ↔ q ∈ l ∧ P q = true) :
    S.ncard = (l.filter P).length := by
  have : S = ((l.filter P).toFinset : Set Px) := by
    ext q; simp [h]
  rw [this, Set.ncard_coe_finset, List.toFinset_card_of_nodup (hl.filter _)]

theorem sizes_spec (m : Image) (no : Int) (ccl : Px → Int)
    (h : ∀ p, m.SetAt p → 1 ≤ ccl p ∧ ccl p ≤ no)
    (hc : ∀ p q, m.SetAt p → m.SetAt q → (ccl p = ccl q ↔ Connected m.SetAt p q)) :
    ∃ ccs, sizes m no ccl = some ccs ∧ ∀ p, m.SetAt p → ccs (ccl p) = segmentSize m.SetAt p := by
  have hin : ∀ p ∈ pixels m, m.px p = true → m.SetAt p := by
    intro p hp hx
    rw [mem_pixels] at hp
    rw [setAt_iff, Image.val, hp, hx]; rfl
  refine ⟨_, sizes_fold m no ccl (pixels m) (fun p hp hx => h p (hin p hp hx)) _, ?_⟩
  intro p hp
  rw [segmentSize, zero_add, ncard_filter (pixels m) (nodup_pixels m)]
  intro q
  simp only [Set.mem_setOf_eq, Bool.and_eq_true, decide_eq_true_eq]
  constructor
  · intro hq
    have hqs : m.SetAt q := by
      rw [setAt_eq] at hq; rw [setAt_iff]; exact connected_set hq
    refine ⟨?_, hqs.2, ((hc p q hp hqs).2 hq).symm⟩
    rw [mem_pixels]
    rw [setAt_iff, Image.val, Bool.and_eq_true] at hqs
    exact hqs.1
  · rintro ⟨hq, hx, e⟩
    exact (hc p q hp (hin q hq hx)).1 e.symm

/-- The image without its upper left pixel. -/
def Image.clipped (m : Image) (p : Int × Int) : Prop := m.SetAt p ∧ p ≠ (0, 0)

/-- If whole segments are removed, the others stay the same. -/
theorem connected_keep {F G : Px → Prop} (hsub : ∀ p, G p → F p)
    (hwhole : ∀ p q, G p → Connected F p q → G q) (p q : Px) (hp : G p) : Connected G p q ↔ Connected F p q := by
  constructor
  · rintro ⟨h, hc⟩
    exact ⟨hsub p h, Relation.ReflTransGen.mono (fun a b hab => ⟨hab.1, hsub b hab.2⟩) _ _ hc⟩
  · rintro ⟨h, hc⟩
    refine ⟨hp, ?_⟩
    induction hc with
    | refl => exact Relation.ReflTransGen.refl
    | tail hab hbc ih => exact ih.tail ⟨hbc.1, hwhole p _ hp ⟨h, hab.tail hbc⟩⟩

/-- C86, without the upper left pixel: for every image and minimum size, the objects are the segments that
have at least this many pixels; they are numbered from 1, each has its own number, and the sizes are the
numbers of pixels. What is missing: the upper left pixel, see `c86_corner_violated`. -/
theorem c86_objects_partial (m : Image) (nmin : Int) : ∃ (N : Nat) (o : Objects),
    (∀ fuel, N ≤ fuel → objects m nmin fuel = some o) ∧
    (∀ p, o.image.SetAt p ↔ m.clipped p ∧ nmin ≤ segmentSize m.clipped p) ∧
    (∀ p, ¬ o.image.SetAt p → o.obj p = 0) ∧
    (∀ p, o.image.SetAt p → 1 ≤ o.obj p ∧ o.obj p ≤ o.nobj ∧ o.size (o.obj p) = segmentSize m.clipped p) ∧
    (∀ p q, o.image.SetAt p → o.image.SetAt q → (o.obj p = o.obj q ↔ Connected m.clipped p q)) ∧
    (∀ l, 1 ≤ l → l ≤ o.nobj → ∃ p, o.image.SetAt p ∧ o.obj p = l) := by
  have hm1 : (clip m).SetAt = m.clipped := by
    funext p
    simp only [Image.SetAt, Image.clipped, clip, eq_iff_iff]
    by_cases hp : p = (0, 0)
    · simp [hp]
    · simp [hp]
  obtain ⟨N, k, lab, hN, g0, g1, g2, g3, -⟩ := c85_segments (clip m)
  unfold objects
  generalize clip m = m1 at *
  by_cases hk : 0 < k
  · obtain ⟨ccs, hccs, hsz⟩ := sizes_spec m1 k lab g1 g2
    obtain ⟨m2, hdef⟩ : ∃ m2, m2 = sift m1 nmin lab ccs := ⟨_, rfl⟩
    have hm2 : ∀ p, m2.SetAt p ↔ m1.SetAt p ∧ nmin ≤ segmentSize m1.SetAt p := by
      intro p
      constructor
      · intro h
        have h' := h
        rw [hdef] at h'
        simp only [Image.SetAt, sift] at h'
        by_cases hc : (m1.px p && decide (ccs (lab p) < nmin)) = true
        · rw [if_pos hc] at h'; exact absurd h'.2 (by decide)
        · rw [if_neg hc] at h'
          have hp : m1.SetAt p := h'
          refine ⟨hp, ?_⟩
          rw [hp.2] at hc
          simp only [Bool.true_and, decide_eq_true_eq, not_lt] at hc
          rw [← hsz p hp]; exact hc
      · rintro ⟨hp, hn⟩
        rw [← hsz p hp] at hn
        rw [hdef]
        refine ⟨hp.1, ?_⟩
        simp only [sift]
        rw [if_neg (by simp only [Bool.and_eq_true, decide_eq_true_eq]; omega)]
        exact hp.2
    have hkeep := connected_keep (F := m1.SetAt) (G := m2.SetAt) (fun p hp => ((hm2 p).1 hp).1) (by
      intro p q hp hc
      obtain ⟨hp1, hp2⟩ := (hm2 p).1 hp
      have hq : m1.SetAt q := by
        have := hc
        rw [setAt_eq] at this; rw [setAt_iff]; exact connected_set this
      refine (hm2 q).2 ⟨hq, ?_⟩
      rw [← hsz q hq, ← (g2 p q hp1 hq).2 hc, hsz p hp1]
      exact hp2)
    have hsize : ∀ p, m2.SetAt p → segmentSize m2.SetAt p = segmentSize m1.SetAt p := by
      intro p hp
      unfold segmentSize
      congr 1
      ext q
      exact hkeep p q hp
    obtain ⟨N2, k2, lab2, hN2, e0, e1, e2, e3, -⟩ := c85_segments m2
    by_cases hk2 : 0 < k2
    · obtain ⟨ccs2, hccs2, hsz2⟩ := sizes_spec m2 k2 lab2 e1 e2
      refine ⟨max N N2, ⟨m2, k2, fun p => if m2.px p then lab2 p else 0, ccs2⟩, ?_, ?_, ?_, ?_, ?_, ?_⟩
      · intro fuel hf
        simp only [hN fuel (by omega), Option.bind_some, gt_iff_lt, hk, if_true, hccs, ← hdef,
          hN2 fuel (by omega), hk2, hccs2]
      · rw [← hm1]; exact hm2
      · intro p hp
        simp only
        split
        · exact e0 p hp
        · rfl
      · intro p hp
        simp only
        rw [if_pos hp.2, ← hm1, ← hsize p hp]
        exact ⟨(e1 p hp).1, (e1 p hp).2, hsz2 p hp⟩
      · intro p q hp hq
        simp only
        rw [if_pos hp.2, if_pos hq.2, ← hm1, ← hkeep p q hp]
        exact e2 p q hp hq
      · intro l a b
        obtain ⟨p, hp, e⟩ := e3 l a b
        refine ⟨p, hp.1, ?_⟩
        simp only
        rw [if_pos hp.1.2]; exact e
    · have hnone : ∀ p, ¬ m2.SetAt p := fun p hp => by have := e1 p hp; omega
      refine ⟨max N N2, ⟨m2, k2, fun _ => 0, fun _ => 0⟩, ?_, ?_, ?_, ?_, ?_, ?_⟩
      · intro fuel hf
        simp only [hN fuel (by omega), Option.bind_some, gt_iff_lt, hk, if_true, hccs, ← hdef,
          hN2 fuel (by omega), hk2, if_false]
      · rw [← hm1]; exact hm2
      · intro p hp; rfl
      · intro p hp; exact absurd hp (hnone p)
      · intro p q hp; exact absurd hp (hnone p)
      · intro l a b; simp only at b; omega
  · have hnone : ∀ p, ¬ m1.SetAt p := fun p hp => by have := g1 p hp; omega
    refine ⟨N, ⟨m1, k, fun _ => 0, fun _ => 0⟩, ?_, ?_, ?_, ?_, ?_, ?_⟩
    · intro fuel hf
      simp only [hN fuel hf, Option.bind_some, gt_iff_lt, hk, if_false]
    · intro p
      simp only
      rw [← hm1]
      exact ⟨fun hp => absurd hp (hnone p), fun hp => absurd hp.1 (hnone p)⟩
    · intro p hp; rfl
    · intro p hp; exact absurd hp (hnone p)
    · intro p q hp; exact absurd hp (hnone p)
    · intro l a b; simp only at b; omega

/-- The segment of the upper left pixel loses exactly this pixel. -/
theorem clipped_size (m : Image) (p : Int × Int) (hp : m.clipped p) (hc : Connected m.SetAt (0, 0) p) :
    segmentSize m.clipped p < segmentSize m.SetAt p := by
  unfold segmentSize
  refine Set.ncard_lt_ncard ?_ ?_
  · constructor
    · intro q hq
      exact ⟨hq.1.1, Relation.ReflTransGen.mono (fun a b hab => ⟨hab.1, hab.2.1⟩) _ _ hq.2⟩
    · intro hsub
      have h0 : Connected m.SetAt p (0, 0) := by
        rw [setAt_eq] at hc ⊢; exact connected_symm hc
      obtain ⟨hh, hcc⟩ := hsub h0
      have : m.clipped (0, 0) := by
        rcases Relation.ReflTransGen.cases_tail hcc with e | ⟨b, _, hb⟩
        · rw [e]; exact hp
        · exact hb.2
      exact this.2 rfl
  · apply Set.Finite.subset (pixels m).toFinset.finite_toSet
    intro q hq
    simp only [Set.mem_setOf_eq] at hq
    rw [setAt_eq] at hq
    have := connected_set hq
    simp only [List.coe_toFinset, Set.mem_setOf_eq, mem_pixels]
    rw [Image.val, Bool.and_eq_true] at this
    exact this.1

/-- C86, violated: the upper left pixel of the image is never part of an object, whatever the image; and a
segment that includes it and has exactly the minimum size is removed, although the same segment elsewhere in the
image is kept. -/
theorem c86_corner_violated (m : Image) (nmin : Int) (h0 : m.SetAt (0, 0)) :
    ∃ (N : Nat) (o : Objects), (∀ fuel, N ≤ fuel → objects m nmin fuel = some o) ∧
      ¬ o.image.SetAt (0, 0) ∧ o.obj (0, 0) = 0 ∧
      ∀ p, Connected m.SetAt (0, 0) p → (segmentSize m.SetAt p : Int) = nmin → ¬ o.image.SetAt p ∧ o.obj p = 0 := by
  obtain ⟨N, o, hN, h1, h2, -⟩ := c86_objects_partial m nmin
  have hz : ¬ o.image.SetAt (0, 0) := fun h => ((h1 _).1 h).1.2 rfl
  refine ⟨N, o, hN, hz, h2 _ hz, fun p hc hs => ?_⟩
  have hno : ¬ o.image.SetAt p := by
    intro hp
    obtain ⟨hcl, hn⟩ := (h1 p).1 hp
    have := clipped_size m p hcl hc
    omega
  exact ⟨hno, h2 p hno⟩

end Verif.Ccl
