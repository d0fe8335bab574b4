import Mathlib.Data.List.Forall2
import Verif.Meta.Calib

/-!
# C184, C185: images that are accepted
-/

namespace Verif.Meta

open Verif.Libc Verif.Str Verif.Meta.Spec

/-! ## States that differ only in the minimum radiance -/

/-- Two bands that differ at most in the minimum radiance. -/
def rel (a b : Cal) : Prop :=
  a.band = b.band ∧ a.domain = b.domain ∧ a.fname = b.fname ∧ ∀ u, u ≠ 2 → a.coef u = b.coef u

/-- Two states that differ at most in the minimum radiance of bands. -/
def relS (a b : St) : Prop := ∃ cals, b = { a with cals := cals } ∧ List.Forall₂ rel a.cals cals

theorem rel_refl (a : Cal) : rel a a := ⟨rfl, rfl, rfl, fun _ _ => rfl⟩

theorem relS_refl (a : St) : relS a a := ⟨a.cals, rfl, List.forall₂_same.2 fun x _ => rel_refl x⟩

theorem mapOut_rel {f g : Cal → Out Cal} {l1 l2 r1 : List Cal}
    (hf : ∀ a b x, rel a b → f a = .ok x → ∃ y, g b = .ok y ∧ rel x y)
    (hl : List.Forall₂ rel l1 l2) (h : mapOut f l1 = .ok r1) :
    ∃ r2, mapOut g l2 = .ok r2 ∧ List.Forall₂ rel r1 r2 := by
  induction hl generalizing r1 with
  | nil => cases h; exact ⟨[], rfl, .nil⟩
  | cons hab _ ih =>
    obtain ⟨x, h1, h2⟩ := bind_ok h
    obtain ⟨xs, h3, h4⟩ := bind_ok h2
    cases h4
    obtain ⟨y, h5, h6⟩ := hf _ _ _ hab h1
    obtain ⟨ys, h7, h8⟩ := ih h3
    refine ⟨y :: ys, ?_, .cons h6 h8⟩
    simp only [mapOut, h5, h7, Out.bind]

theorem setBand_rel {num : List Char → ℚ} {d tag s : List Char} {lid : ℤ} {t : Nat} {a b x : Cal}
    (h : rel a b) (hx : setBand num d tag (some s) lid t a = .ok x) :
    ∃ y, setBand num d tag (some s) lid t b = .ok y ∧ rel x y := by
  obtain ⟨h1, h2, h3, h4⟩ := h
  unfold setBand at hx ⊢
  by_cases ht : t = 0
  · rw [if_pos ht] at hx ⊢
    rw [← h3, ← h1]
    by_cases hc : a.fname = none ∧ tag ∈ bandTags lid a.band 0
    · rw [if_pos hc] at hx ⊢
      simp only at hx ⊢
      split at hx
      · cases hx
      · cases hx
        rw [if_neg (by assumption)]
        exact ⟨_, rfl, rfl, h2, rfl, h4⟩
    · rw [if_neg hc] at hx ⊢
      cases hx
      exact ⟨_, rfl, h1, h2, h3, h4⟩
  · rw [if_neg ht] at hx ⊢
    by_cases h2' : t = 2
    · subst h2'
      refine ⟨_, (by split_ifs <;> rfl : _ = Out.ok (if b.coef 2 = fill ∧ tag ∈ bandTags lid b.band 2
        then { b with coef := fun u => if u = 2 then num s else b.coef u } else b)), ?_⟩
      have : x.band = a.band ∧ x.domain = a.domain ∧ x.fname = a.fname ∧ ∀ u, u ≠ 2 → x.coef u = a.coef u := by
        split at hx
        · cases hx
          exact ⟨rfl, rfl, rfl, fun u hu => by simp only [if_neg hu]⟩
        · cases hx; exact ⟨rfl, rfl, rfl, fun _ _ => rfl⟩
      obtain ⟨x1, x2, x3, x4⟩ := this
      split_ifs
      · exact ⟨x1.trans h1, x2.trans h2, x3.trans h3, fun u hu => by
          simp only [if_neg hu]; exact (x4 u hu).trans (h4 u hu)⟩
      · exact ⟨x1.trans h1, x2.trans h2, x3.trans h3, fun u hu => (x4 u hu).trans (h4 u hu)⟩
    · rw [← h4 t h2', ← h1]
      split at hx
      · rw [if_pos (by assumption)]
        cases hx
        refine ⟨_, rfl, rfl, h2, h3, ?_⟩
        intro u hu
        simp only
        split_ifs
        · rfl
        · exact h4 u hu
      · rw [if_neg (by assumption)]
        cases hx
        exact ⟨_, rfl, h1, h2, h3, h4⟩

theorem setBands_rel {num : List Char → ℚ} {d tag s : List Char} {t : Nat} {a b x : St}
    (h : relS a b) (hx : setBands num d tag (some s) t a = .ok x) :
    ∃ y, setBands num d tag (some s) t b = .ok y ∧ relS x y := by
  obtain ⟨cals, rfl, hr⟩ := h
  unfold setBands at hx ⊢
  split at hx
  · cases hx
  · rename_i hc
    rw [if_neg hc]
    obtain ⟨r, h1, h2⟩ := bind_ok hx
    cases h2
    obtain ⟨r2, h3, h4⟩ := mapOut_rel (g := fun cal => if applies t cal then
      setBand num d tag (some s) a.lid t cal else .ok cal) (fun a' b' x' hab hx' => by
        have e : applies t a' = applies t b' := applies_congr hab.2.1
        rw [← e]
        split at hx'
        · rw [if_pos (by assumption)]; exact setBand_rel hab hx'
        · rw [if_neg (by assumption)]; cases hx'; exact ⟨b', rfl, hab⟩) hr h1
    refine ⟨_, ?_, r2, rfl, h4⟩
    simp only
    rw [h3]
    rfl

theorem lineEff_rel {num : List Char → ℚ} {d : List Char} {a b x : St} {l : Line} (hg : Good l)
    (hcr : ¬ hasTag ["SPACECRAFT_ID"] l) (h : relS a b) (hx : lineEff num d a l = .ok x) :
    ∃ y, lineEff num d b l = .ok y ∧ relS x y := by
  cases l with
  | date n t y m dd => obtain ⟨cals, rfl, hr⟩ := h; cases hx; exact ⟨_, rfl, cals, rfl, hr⟩
  | clock n t p q r => obtain ⟨cals, rfl, hr⟩ := h; cases hx; exact ⟨_, rfl, cals, rfl, hr⟩
  | other z => cases hx; exact ⟨b, rfl, h⟩
  | entry n t v q =>
    obtain ⟨-, -, ht, hv, hp, hd1, hd2, ht1, ht2⟩ := hg
    have hcr' : kind t ≠ .craft := fun e => hcr ⟨_, by simp, kind_craft e⟩
    have hkd : kind t ≠ .date := fun e => (kind_date e).elim hd1 hd2
    have hkt : kind t ≠ .time := fun e => (kind_time e).elim ht1 ht2
    simp only [lineEff, entryEff] at hx ⊢
    obtain ⟨⟨a1, a2, a3⟩, h1, h2⟩ := bind_ok hx
    simp only [Out.ok.injEq] at h2
    subst h2
    unfold handle at h1 ⊢
    revert h1
    generalize seen v q = s
    cases hk : kind t with
    | craft => exact absurd hk hcr'
    | date => exact absurd hk hkd
    | time => exact absurd hk hkt
    | file =>
      intro h1
      obtain ⟨z, h3, h4⟩ := bind_ok h1
      simp only [Out.ok.injEq, Prod.mk.injEq] at h4
      obtain ⟨rfl, -, -⟩ := h4
      obtain ⟨y, h5, h6⟩ := setBands_rel h h3
      exact ⟨y, by simp only [h5, Out.bind], h6⟩
    | coefs u =>
      intro h1
      obtain ⟨z, h3, h4⟩ := bind_ok h1
      simp only [Out.ok.injEq, Prod.mk.injEq] at h4
      obtain ⟨rfl, -, -⟩ := h4
      obtain ⟨y, h5, h6⟩ := setBands_rel h h3
      exact ⟨y, by simp only [h5, Out.bind], h6⟩
    | other =>
      intro h1
      cases h1
      exact ⟨b, rfl, h⟩
    | category =>
      intro h1
      obtain ⟨cals, rfl, hr⟩ := h
      simp only [need] at h1 ⊢
      cases h1
      refine ⟨_, rfl, cals, ?_, ?_⟩
      · split_ifs <;> rfl
      · split_ifs <;> exact hr
    | product => intro h1; obtain ⟨cals, rfl, hr⟩ := h; cases h1; exact ⟨_, rfl, cals, rfl, hr⟩
    | path => intro h1; obtain ⟨cals, rfl, hr⟩ := h; cases h1; exact ⟨_, rfl, cals, rfl, hr⟩
    | row => intro h1; obtain ⟨cals, rfl, hr⟩ := h; cases h1; exact ⟨_, rfl, cals, rfl, hr⟩
    | _ =>
      intro h1
      obtain ⟨cals, rfl, hr⟩ := h
      simp only [need, withImage] at h1 ⊢
      split at h1
      · cases h1
        rw [if_pos (by assumption)]
        exact ⟨_, rfl, cals, rfl, hr⟩
      · cases h1

/-- A line with a minimum radiance changes nothing else. -/
theorem lineEff_minimum {num : List Char → ℚ} {d : List Char} {a x : St} {n : Nat} {t v : List Char}
    {q : Bool} (hk : kind t = .coefs 2) (hx : lineEff num d a (.entry n t v q) = .ok x) : relS a x := by
  simp only [lineEff, entryEff] at hx
  obtain ⟨⟨a1, a2, a3⟩, h1, h2⟩ := bind_ok hx
  simp only [Out.ok.injEq] at h2
  subst h2
  unfold handle at h1
  rw [hk] at h1
  obtain ⟨z, h3, h4⟩ := bind_ok h1
  simp only [Out.ok.injEq, Prod.mk.injEq] at h4
  obtain ⟨rfl, -, -⟩ := h4
  have := setBands_ok h3
  subst this
  refine ⟨_, rfl, ?_⟩
  generalize a.cals = cals
  induction cals with
  | nil => exact .nil
  | cons c cs ih =>
    refine .cons ?_ ih
    simp only [applies, if_pos (show 2 ≤ 4 by omega), if_true]
    obtain ⟨e1, e2⟩ := updCal_band num d t (seen v q) a.lid 2 c
    exact ⟨e1.symm, e2.symm, (updCal_fname _ _ _ _ _ _ _ (by omega)).symm,
      fun u hu => (updCal_other _ _ _ _ _ _ _ _ (Ne.symm hu)).symm⟩

theorem rel_symm {a b : Cal} (h : rel a b) : rel b a :=
  ⟨h.1.symm, h.2.1.symm, h.2.2.1.symm, fun u hu => (h.2.2.2 u hu).symm⟩

theorem rel_trans {a b c : Cal} (h : rel a b) (k : rel b c) : rel a c :=
  ⟨h.1.trans k.1, h.2.1.trans k.2.1, h.2.2.1.trans k.2.2.1,
    fun u hu => (h.2.2.2 u hu).trans (k.2.2.2 u hu)⟩

theorem forall₂_trans {l1 l2 l3 : List Cal} (h : List.Forall₂ rel l1 l2) (k : List.Forall₂ rel l2 l3) :
    List.Forall₂ rel l1 l3 := by
  induction h generalizing l3 with
  | nil => cases k; exact .nil
  | cons hab _ ih =>
    cases k with
    | cons hbc hk => exact .cons (rel_trans hab hbc) (ih hk)

theorem relS_symm {a b : St} (h : relS a b) : relS b a := by
  obtain ⟨cals, rfl, hr⟩ := h
  exact ⟨a.cals, rfl, (hr.flip).imp fun x y hxy => rel_symm hxy⟩

theorem relS_trans {a b c : St} (h : relS a b) (k : relS b c) : relS a c := by
  obtain ⟨c1, rfl, h1⟩ := h
  obtain ⟨c2, rfl, h2⟩ := k
  exact ⟨c2, rfl, forall₂_trans h1 h2⟩

theorem run_rel {num : List Char → ℚ} {d : List Char} {lid : ℕ} {a b x : St} (ls : List Line)
    (hk : ∀ t, (∃ k ∈ minimumTags lid, t = k.toList) → kind t = .coefs 2)
    (hg : ∀ l ∈ ls, Good l) (hc : ∀ l ∈ ls, ¬ hasTag ["SPACECRAFT_ID"] l)
    (h : relS a b) (hx : run num d a ls = .ok x) :
    ∃ y, run num d b (withoutMinimum lid ls) = .ok y ∧ relS x y := by
  induction ls generalizing a b with
  | nil => cases hx; exact ⟨b, rfl, h⟩
  | cons l ls ih =>
    obtain ⟨a', h1, h2⟩ := bind_ok hx
    have hg' : ∀ l ∈ ls, Good l := fun l hl => hg l (by simp [hl])
    have hc' : ∀ l ∈ ls, ¬ hasTag ["SPACECRAFT_ID"] l := fun l hl => hc l (by simp [hl])
    by_cases hm : hasTag (minimumTags lid) l
    · have e : withoutMinimum lid (l :: ls) = withoutMinimum lid ls := by
        simp [withoutMinimum, hm]
      rw [e]
      refine ih hg' hc' ?_ h2
      cases l with
      | entry n t v q => exact relS_trans (relS_symm (lineEff_minimum (hk t hm) h1)) h
      | date n t y m dd => exact absurd hm (by simp [hasTag])
      | clock n t p q r => exact absurd hm (by simp [hasTag])
      | other z => exact absurd hm (by simp [hasTag])
    · have e : withoutMinimum lid (l :: ls) = l :: withoutMinimum lid ls := by
        simp [withoutMinimum, hm]
      rw [e, run]
      obtain ⟨b', h3, h4⟩ := lineEff_rel (hg l (by simp)) (hc l (by simp)) h h1
      rw [h3]
      exact ih hg' hc' h4 h2

theorem minimum_kind : ∀ lid ∈ lids, ∀ k ∈ minimumTags lid, kind k.toList = .coefs 2 := by
  decide +kernel

theorem bandOk_rel {a b : Cal} (h : rel a b) : bandOk a = bandOk b := by
  obtain ⟨-, h2, h3, h4⟩ := h
  unfold bandOk
  rw [h2, h3, h4 1 (by omega), h4 3 (by omega), h4 4 (by omega), h4 5 (by omega), h4 6 (by omega),
    h4 7 (by omega), h4 8 (by omega)]

theorem fillThermal_rel (num : List Char → ℚ) (lid : ℤ) {a b : Cal} (h : rel a b) :
    rel (fillThermal num lid a) (fillThermal num lid b) := by
  obtain ⟨h1, h2, h3, h4⟩ := h
  unfold fillThermal
  rw [h2]
  split_ifs
  · refine ⟨h1, rfl, h3, fun u hu => ?_⟩
    simp only
    rw [h4 u hu]
  · exact ⟨h1, h2, h3, h4⟩

theorem firstValue_filter (lid : ℕ) (names : List String) (hn : ∀ k ∈ names, k ∈ minimumTags lid)
    (ls : List Line) : firstValue names (withoutMinimum lid ls) = none := by
  induction ls with
  | nil => rfl
  | cons l ls ih =>
    unfold withoutMinimum at ih ⊢
    rw [List.filter_cons]
    split_ifs with h
    · cases l with
      | entry n t v q =>
        rw [firstValue, if_neg]
        · exact ih
        · rintro ⟨k, hk, rfl⟩
          simp only [decide_eq_true_eq] at h
          exact h ⟨k, hn k hk, rfl⟩
      | date n t y m dd => exact ih
      | clock n t p q r => exact ih
      | other z => exact ih
    · exact ih

/-- C184, violated: an image is accepted although the minimum radiance is missing. For every
accepted metadata file, the file without the lines that give the minimum radiance of the bands
is accepted as well, and every band is then calibrated with the fill value -32768 as minimum
radiance. -/
theorem c184_minimum_violated (num : List Char → ℚ) (hnum : ∀ v, num (v ++ ['\n']) = num v)
    (d : List Char) (maxTier : ℤ) (pre post : List Line) (tail : Option (List Char))
    (n lid : ℕ) (hl : lid ∈ [4, 5, 7, 8, 9]) (w : List Char) (st : St)
    (hg : ∀ l ∈ pre ++ .entry n "SPACECRAFT_ID".toList (w ++ [Char.ofNat (48 + lid)]) true :: post, Good l)
    (hc : ∀ l ∈ post, ¬ hasTag ["SPACECRAFT_ID"] l)
    (hv : ∀ n t v q, Line.entry n t v q ∈ post → num v ≠ -32768)
    (hq : ∀ n t v q, Line.entry n t v q ∈ post → "FILE_NAME".toList <:+: t → q = true)
    (h : parseLandsat num d maxTier (fileText
      (pre ++ .entry n "SPACECRAFT_ID".toList (w ++ [Char.ofNat (48 + lid)]) true :: post) tail) = .ok st) :
    ∃ st', parseLandsat num d maxTier (fileText
      (pre ++ .entry n "SPACECRAFT_ID".toList (w ++ [Char.ofNat (48 + lid)]) true
        :: withoutMinimum lid post) tail) = .ok st' ∧
      st'.cals.length = st.cals.length ∧ ∀ c ∈ st'.cals, c.value .lmin = -32768 := by
  obtain ⟨st1, st2, h1, h2, h3, h4⟩ := parse_steps hl hg h
  have hgp : ∀ l ∈ post, Good l := fun l hl' => hg l (by simp [hl'])
  have hsub : ∀ l ∈ withoutMinimum lid post, l ∈ post := fun l hl' => List.mem_of_mem_filter hl'
  obtain ⟨y, h5, h6⟩ := run_rel post (by
    rintro t ⟨k, hk, rfl⟩; exact minimum_kind lid hl k hk) hgp hc (relS_refl _) h2
  have hg' : ∀ l ∈ imageLines pre (withoutMinimum lid post) n lid w, Good l := by
    intro l hl'
    simp only [imageLines, List.mem_append, List.mem_cons] at hl'
    apply hg
    rcases hl' with hl' | hl' | hl'
    · exact List.mem_append_left _ hl'
    · exact List.mem_append_right _ (by simp [hl'])
    · exact List.mem_append_right _ (List.mem_cons_of_mem _ (hsub l hl'))
  obtain ⟨c1, c2, c3⟩ := check_ok h4
  obtain ⟨cals, e1, e2⟩ := h6
  have hok : parseLandsat num d maxTier (fileText (imageLines pre (withoutMinimum lid post) n lid w) tail)
      = .ok { y with cals := y.cals.map (fillThermal num y.lid) } := by
    unfold parseLandsat
    rw [readLines_file num d {} _ tail hg']
    unfold imageLines
    have ec := lineEff_craft num d st1 n lid w hl
    rw [run_append, h1]
    show ((run num d st1 _).bind _) = _
    rw [run]
    rw [show lineEff num d st1 (.entry n "SPACECRAFT_ID".toList (w ++ [Char.ofNat (48 + lid)]) true) = _
      from ec]
    show ((run num d (craftState st1 lid) (withoutMinimum lid post)).bind _) = _
    rw [h5]
    subst e1
    simp only [Out.bind]
    rw [if_neg (by simp [h3])]
    unfold check at h4 ⊢
    simp only at h4 ⊢
    split at h4
    · cases h4
    · rename_i g1
      rw [if_neg g1]
      split at h4
      · cases h4
      · rename_i g2
        rw [if_neg g2, if_pos]
        intro cal hcal
        rw [List.mem_map] at hcal
        obtain ⟨c', hc', rfl⟩ := hcal
        obtain ⟨i, hi, rfl⟩ := List.mem_iff_getElem.1 hc'
        have hi' : i < st2.cals.length := by rw [e2.length_eq]; exact hi
        have hr := (List.forall₂_iff_get.1 e2).2 i hi' hi
        rw [show cals[i] = cals.get ⟨i, hi⟩ from rfl, ← bandOk_rel (fillThermal_rel num _ hr)]
        apply c3
        simp only [List.mem_map]
        exact ⟨_, List.get_mem _ _, rfl⟩
  refine ⟨_, hok, ?_, ?_⟩
  · subst e1 c1
    simp [e2.length_eq]
  · have hlm : ∀ b ∈ bands lid, Quantity.lmin ∈ needed b.2 := by
      intro b _
      unfold needed
      split_ifs <;> simp
    have := c183_calibration num hnum d maxTier pre (withoutMinimum lid post) tail n lid hl w _ hg'
      (fun l hl' => hc l (hsub l hl')) (fun n t v q hm => hv n t v q (hsub _ hm))
      (fun n t v q hm => hq n t v q (hsub _ hm)) hok
    obtain ⟨-, t1, t2⟩ := this
    intro c hcm
    have hb : (c.band, c.domain) ∈ bands lid := by
      rw [← t1]
      exact List.mem_map.2 ⟨c, hcm, rfl⟩
    have := (t2 c hcm).2 .lmin (hlm _ hb)
    rw [this, firstValue_filter lid (tags lid c.band .lmin) (fun k hk =>
      List.mem_flatMap.2 ⟨_, hb, hk⟩) post]
    rfl

end Verif.Meta
