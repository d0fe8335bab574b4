import Verif.Meta.Lines

/-!
# The calibration of the bands (C183)
-/

namespace Verif.Meta

open Verif.Libc Verif.Str Verif.Meta.Spec

theorem kind_craft {t : List Char} (h : kind t = .craft) : t = ch "SPACECRAFT_ID" := by
  unfold kind at h
  refine peel_self h ?_
  clear h
  intro h
  iterate 20 replace h := peel h (by decide)
  exact absurd h (by decide)

/-! ## One band -/

/-- A band after a line with a value of type `t`. -/
def updCal (num : List Char → ℚ) (d tag s : List Char) (lid : ℤ) (t : Nat) (cal : Cal) : Cal :=
  if t = 0 then
    if cal.fname = none ∧ tag ∈ bandTags lid cal.band 0 then { cal with fname := some (d ++ '/' :: s) }
    else cal
  else if cal.coef t = fill ∧ tag ∈ bandTags lid cal.band t then
    { cal with coef := fun u => if u = t then num s else cal.coef u }
  else cal

theorem setBand_ok {num : List Char → ℚ} {d tag s : List Char} {lid : ℤ} {t : Nat} {cal c : Cal}
    (h : setBand num d tag (some s) lid t cal = .ok c) : c = updCal num d tag s lid t cal := by
  unfold setBand at h
  unfold updCal
  split at h
  · rw [if_pos (by assumption)]
    split at h
    · rw [if_pos (by assumption)]
      simp only at h
      split at h
      · cases h
      · cases h; rfl
    · rw [if_neg (by assumption)]; cases h; rfl
  · rw [if_neg (by assumption)]
    split at h
    · rw [if_pos (by assumption)]; cases h; rfl
    · rw [if_neg (by assumption)]; cases h; rfl

theorem mapOut_ok {α β : Type} {f : α → Out β} {g : α → β} (l : List α) {r : List β}
    (hf : ∀ a b, f a = .ok b → b = g a) (h : mapOut f l = .ok r) : r = l.map g := by
  induction l generalizing r with
  | nil => simp only [mapOut, Out.ok.injEq] at h; rw [← h]; rfl
  | cons a l ih =>
    simp only [mapOut] at h
    cases ha : f a with
    | exit => rw [ha] at h; simp [Out.bind] at h
    | ub => rw [ha] at h; simp [Out.bind] at h
    | ok b =>
      rw [ha] at h
      cases hl : mapOut f l with
      | exit => rw [hl] at h; simp [Out.bind] at h
      | ub => rw [hl] at h; simp [Out.bind] at h
      | ok bs =>
        rw [hl] at h
        simp only [Out.bind, Out.ok.injEq] at h
        rw [← h, hf a b ha, ih hl]
        rfl

/-- A band after a line. -/
def lineCal (num : List Char → ℚ) (d : List Char) (lid : ℤ) (l : Line) (cal : Cal) : Cal :=
  match l with
  | .entry _ t v q =>
    match kind t with
    | .file => updCal num d t (seen v q) lid 0 cal
    | .coefs u => if applies u cal then updCal num d t (seen v q) lid u cal else cal
    | _ => cal
  | _ => cal

theorem setBands_ok {num : List Char → ℚ} {d tag s : List Char} {t : Nat} {st st' : St}
    (h : setBands num d tag (some s) t st = .ok st') :
    st' = { st with cals := st.cals.map (fun cal => if applies t cal then
      updCal num d tag s st.lid t cal else cal) } := by
  unfold setBands at h
  split at h
  · cases h
  · cases hm : mapOut (fun cal => if applies t cal then setBand num d tag (some s) st.lid t cal
        else .ok cal) st.cals with
    | exit => rw [hm] at h; simp [Out.bind] at h
    | ub => rw [hm] at h; simp [Out.bind] at h
    | ok cals =>
      rw [hm] at h
      simp only [Out.bind, Out.ok.injEq] at h
      rw [← h]
      congr 1
      refine mapOut_ok _ ?_ hm
      intro a b hab
      split at hab
      · rw [if_pos (by assumption)]; exact setBand_ok hab
      · rw [if_neg (by assumption)]; cases hab; rfl

theorem withImage_ok {st st' a : St} (h : withImage st st' = .ok a) : a = st' := by
  unfold withImage at h
  split at h
  · cases h; rfl
  · cases h

theorem map_same (l : List Cal) : l = l.map fun cal => cal := by simp

theorem bind_ok {α β : Type} {o : Out α} {f : α → Out β} {b : β} (h : o.bind f = .ok b) :
    ∃ a, o = .ok a ∧ f a = .ok b := by
  cases o with
  | ok a => exact ⟨a, rfl, h⟩
  | exit => cases h
  | ub => cases h

theorem lineEff_cals {num : List Char → ℚ} {d : List Char} {st st' : St} {l : Line}
    (hc : ¬ hasTag ["SPACECRAFT_ID"] l) (hg : Good l) (h : lineEff num d st l = .ok st') :
    st'.cals = st.cals.map (lineCal num d st.lid l) ∧ st'.lid = st.lid ∧ st'.craft = st.craft ∧
      st'.dtype = st.dtype ∧ st'.sat = st.sat := by
  cases l with
  | date n t y m dd => cases h; exact ⟨map_same _, rfl, rfl, rfl, rfl⟩
  | clock n t a b c => cases h; exact ⟨map_same _, rfl, rfl, rfl, rfl⟩
  | other x => cases h; exact ⟨map_same _, rfl, rfl, rfl, rfl⟩
  | entry n t v q =>
    obtain ⟨-, -, ht, hv, hp, hd1, hd2, ht1, ht2⟩ := hg
    have hcr : kind t ≠ .craft := by
      intro e
      exact hc ⟨_, by simp, kind_craft e⟩
    have hkd : kind t ≠ .date := fun e => (kind_date e).elim hd1 hd2
    have hkt : kind t ≠ .time := fun e => (kind_time e).elim ht1 ht2
    simp only [lineEff, entryEff] at h
    obtain ⟨⟨a, b, c⟩, h1, h2⟩ := bind_ok h
    simp only [Out.ok.injEq] at h2
    subst h2
    unfold handle at h1
    have hlc : lineCal num d st.lid (.entry n t v q) = fun cal =>
      match kind t with
      | .file => updCal num d t (seen v q) st.lid 0 cal
      | .coefs u => if applies u cal then updCal num d t (seen v q) st.lid u cal else cal
      | _ => cal := rfl
    rw [hlc]
    revert h1
    generalize seen v q = s
    cases hk : kind t with
    | craft => exact absurd hk hcr
    | date => exact absurd hk hkd
    | time => exact absurd hk hkt
    | file =>
      intro h1
      obtain ⟨x, h3, h4⟩ := bind_ok h1
      simp only [Out.ok.injEq, Prod.mk.injEq] at h4
      obtain ⟨rfl, -, -⟩ := h4
      have := setBands_ok h3
      subst this
      refine ⟨?_, rfl, rfl, rfl, rfl⟩
      simp only [applies, if_true, Nat.zero_le]
    | coefs u =>
      intro h1
      obtain ⟨x, h3, h4⟩ := bind_ok h1
      simp only [Out.ok.injEq, Prod.mk.injEq] at h4
      obtain ⟨rfl, -, -⟩ := h4
      have := setBands_ok h3
      subst this
      exact ⟨rfl, rfl, rfl, rfl, rfl⟩
    | other =>
      intro h1
      obtain ⟨x, h3, h4⟩ := bind_ok h1
      simp only [Out.ok.injEq, Prod.mk.injEq] at h4 h3
      obtain ⟨rfl, -, -⟩ := h4
      subst h3
      exact ⟨map_same _, rfl, rfl, rfl, rfl⟩
    | category =>
      intro h1
      obtain ⟨x, h3, h4⟩ := bind_ok h1
      simp only [Out.ok.injEq, Prod.mk.injEq, need] at h4 h3
      obtain ⟨rfl, -, -⟩ := h4
      rw [← h3]
      refine ⟨?_, ?_, ?_, ?_, ?_⟩ <;> (split_ifs <;> first | rfl | exact map_same _)
    | product =>
      intro h1
      obtain ⟨x, h3, h4⟩ := bind_ok h1
      simp only [Out.ok.injEq, Prod.mk.injEq, need] at h4 h3
      obtain ⟨rfl, -, -⟩ := h4
      rw [← h3]
      exact ⟨map_same _, rfl, rfl, rfl, rfl⟩
    | path =>
      intro h1
      obtain ⟨x, h3, h4⟩ := bind_ok h1
      simp only [Out.ok.injEq, Prod.mk.injEq, need] at h4 h3
      obtain ⟨rfl, -, -⟩ := h4
      rw [← h3]
      exact ⟨map_same _, rfl, rfl, rfl, rfl⟩
    | row =>
      intro h1
      obtain ⟨x, h3, h4⟩ := bind_ok h1
      simp only [Out.ok.injEq, Prod.mk.injEq, need] at h4 h3
      obtain ⟨rfl, -, -⟩ := h4
      rw [← h3]
      exact ⟨map_same _, rfl, rfl, rfl, rfl⟩
    | _ =>
      intro h1
      obtain ⟨x, h3, h4⟩ := bind_ok h1
      simp only [Out.ok.injEq, Prod.mk.injEq] at h4
      obtain ⟨rfl, -, -⟩ := h4
      have := withImage_ok h3
      rw [this]
      exact ⟨map_same _, rfl, rfl, rfl, rfl⟩

theorem run_cals {num : List Char → ℚ} {d : List Char} {st st' : St} (ls : List Line)
    (hc : ∀ l ∈ ls, ¬ hasTag ["SPACECRAFT_ID"] l) (hg : ∀ l ∈ ls, Good l)
    (h : run num d st ls = .ok st') :
    st'.cals = st.cals.map (fun c => ls.foldl (fun c l => lineCal num d st.lid l c) c) ∧
      st'.lid = st.lid ∧ st'.craft = st.craft ∧ st'.dtype = st.dtype ∧ st'.sat = st.sat := by
  induction ls generalizing st with
  | nil => cases h; exact ⟨map_same _, rfl, rfl, rfl, rfl⟩
  | cons l ls ih =>
    obtain ⟨a, h1, h2⟩ := bind_ok h
    obtain ⟨c1, c2, c3, c4, c5⟩ := lineEff_cals (hc l (by simp)) (hg l (by simp)) h1
    obtain ⟨d1, d2, d3, d4, d5⟩ := ih (fun l hl => hc l (by simp [hl])) (fun l hl => hg l (by simp [hl])) h2
    refine ⟨?_, d2.trans c2, d3.trans c3, d4.trans c4, d5.trans c5⟩
    rw [d1, c1, List.map_map, c2]
    rfl

/-! ## The first value counts -/

theorem updCal_band (num : List Char → ℚ) (d tag s : List Char) (lid : ℤ) (t : Nat) (cal : Cal) :
    (updCal num d tag s lid t cal).band = cal.band ∧ (updCal num d tag s lid t cal).domain = cal.domain := by
  unfold updCal
  split_ifs <;> exact ⟨rfl, rfl⟩

theorem lineCal_band (num : List Char → ℚ) (d : List Char) (lid : ℤ) (l : Line) (cal : Cal) :
    (lineCal num d lid l cal).band = cal.band ∧ (lineCal num d lid l cal).domain = cal.domain := by
  unfold lineCal
  split
  · split
    · exact updCal_band ..
    · split_ifs
      · exact updCal_band ..
      · exact ⟨rfl, rfl⟩
    · exact ⟨rfl, rfl⟩
  · exact ⟨rfl, rfl⟩

theorem foldl_band (num : List Char → ℚ) (d : List Char) (lid : ℤ) (ls : List Line) (cal : Cal) :
    (ls.foldl (fun c l => lineCal num d lid l c) cal).band = cal.band ∧
      (ls.foldl (fun c l => lineCal num d lid l c) cal).domain = cal.domain := by
  induction ls generalizing cal with
  | nil => exact ⟨rfl, rfl⟩
  | cons l ls ih =>
    obtain ⟨h1, h2⟩ := lineCal_band num d lid l cal
    obtain ⟨h3, h4⟩ := ih (lineCal num d lid l cal)
    exact ⟨h3.trans h1, h4.trans h2⟩

theorem updCal_other (num : List Char → ℚ) (d tag s : List Char) (lid : ℤ) (t u : Nat) (cal : Cal)
    (h : t ≠ u) : (updCal num d tag s lid t cal).coef u = cal.coef u := by
  unfold updCal
  split_ifs
  · rfl
  · rfl
  · simp only [if_neg (Ne.symm h)]
  · rfl

theorem updCal_same (num : List Char → ℚ) (d tag s : List Char) (lid : ℤ) (t : Nat) (cal : Cal)
    (h : t ≠ 0) : (updCal num d tag s lid t cal).coef t
      = if cal.coef t = fill ∧ tag ∈ bandTags lid cal.band t then num s else cal.coef t := by
  unfold updCal
  rw [if_neg h]
  split_ifs
  · simp only [if_true]
  · rfl

theorem applies_congr {t : Nat} {a b : Cal} (h : a.domain = b.domain) : applies t a = applies t b := by
  unfold applies; rw [h]

theorem lineCal_coef (num : List Char → ℚ) (d : List Char) (lid : ℤ) (n : Nat) (t v : List Char)
    (q : Bool) (cal : Cal) (u : Nat) (hu : u ≠ 0) (ha : applies u cal = true)
    (hk : ∀ tag ∈ bandTags lid cal.band u, kind tag = .coefs u) :
    (lineCal num d lid (.entry n t v q) cal).coef u
      = if cal.coef u = fill ∧ t ∈ bandTags lid cal.band u then num (seen v q) else cal.coef u := by
  unfold lineCal
  simp only
  by_cases hm : t ∈ bandTags lid cal.band u
  · rw [hk t hm]
    simp only [ha, if_true]
    exact updCal_same _ _ _ _ _ _ _ hu
  · rw [if_neg (fun h => hm h.2)]
    split
    · exact updCal_other _ _ _ _ _ _ _ _ (Ne.symm hu)
    · rename_i w hw
      by_cases hwu : w = u
      · subst hwu
        rw [if_pos ha, updCal_same _ _ _ _ _ _ _ hu, if_neg (fun h => hm h.2)]
      · split_ifs
        · exact updCal_other _ _ _ _ _ _ _ _ hwu
        · rfl
    · rfl

theorem foldl_coef (num : List Char → ℚ) (d : List Char) (lid : ℤ) (ls : List Line) (cal : Cal)
    (u : Nat) (hu : u ≠ 0) (ha : applies u cal = true) (names : List String)
    (hk : ∀ tag ∈ bandTags lid cal.band u, kind tag = .coefs u)
    (hn : ∀ t, t ∈ bandTags lid cal.band u ↔ ∃ k ∈ names, t = k.toList)
    (hv : ∀ n t v q, Line.entry n t v q ∈ ls → num (seen v q) = num v ∧ num v ≠ fill) :
    (ls.foldl (fun c l => lineCal num d lid l c) cal).coef u
      = if cal.coef u = fill then ((firstValue names ls).map num).getD fill else cal.coef u := by
  induction ls generalizing cal with
  | nil => simp only [List.foldl_nil, firstValue, Option.map_none, Option.getD_none]; split_ifs with h; exacts [h, rfl]
  | cons l ls ih =>
    have hb := lineCal_band num d lid l cal
    have step := ih (lineCal num d lid l cal) (by rw [applies_congr hb.2]; exact ha)
      (by rw [hb.1]; exact hk) (by rw [hb.1]; exact hn) (fun n t v q h => hv n t v q (by simp [h]))
    rw [List.foldl_cons, step]
    cases l with
    | entry n t v q =>
      obtain ⟨e1, e2⟩ := hv n t v q (by simp)
      rw [lineCal_coef num d lid n t v q cal u hu ha hk, e1]
      by_cases hf : cal.coef u = fill
      · by_cases hm : t ∈ bandTags lid cal.band u
        · simp only [hf, hm, and_self, if_true, e2, if_false]
          rw [firstValue, if_pos ((hn t).1 hm)]
          rfl
        · simp only [hf, hm, and_false, if_true, if_false]
          rw [firstValue, if_neg (fun h => hm ((hn t).2 h))]
      · simp only [hf, false_and, if_false]
    | date n t y m dd => rfl
    | clock n t a b c => rfl
    | other x => rfl

theorem updCal_fname (num : List Char → ℚ) (d tag s : List Char) (lid : ℤ) (t : Nat) (cal : Cal)
    (h : t ≠ 0) : (updCal num d tag s lid t cal).fname = cal.fname := by
  unfold updCal
  rw [if_neg h]
  split_ifs <;> rfl

theorem kind_coefs_ne_zero {t : List Char} {u : Nat} (h : kind t = .coefs u) : u ≠ 0 := by
  rintro rfl
  unfold kind at h
  iterate 21 replace h := peel h (by decide)
  exact absurd h (by decide)

theorem foldl_fname (num : List Char → ℚ) (d : List Char) (lid : ℤ) (ls : List Line) (cal : Cal)
    (names : List String)
    (hk : ∀ tag ∈ bandTags lid cal.band 0, kind tag = .file)
    (hn : ∀ t, t ∈ bandTags lid cal.band 0 ↔ ∃ k ∈ names, t = k.toList)
    (hv : ∀ n t v q, Line.entry n t v q ∈ ls → kind t = .file → q = true) :
    (ls.foldl (fun c l => lineCal num d lid l c) cal).fname
      = if cal.fname = none then (firstValue names ls).map (fun v => d ++ '/' :: v) else cal.fname := by
  induction ls generalizing cal with
  | nil => simp only [List.foldl_nil, firstValue, Option.map_none]; split_ifs with h; exacts [h, rfl]
  | cons l ls ih =>
    have hb := lineCal_band num d lid l cal
    have step := ih (lineCal num d lid l cal)
      (by rw [hb.1]; exact hk) (by rw [hb.1]; exact hn) (fun n t v q h => hv n t v q (by simp [h]))
    rw [List.foldl_cons, step]
    cases l with
    | entry n t v q =>
      have e := hv n t v q (by simp)
      have hl : (lineCal num d lid (.entry n t v q) cal).fname
          = if cal.fname = none ∧ t ∈ bandTags lid cal.band 0 then some (d ++ '/' :: v)
            else cal.fname := by
        unfold lineCal
        simp only
        by_cases hm : t ∈ bandTags lid cal.band 0
        · rw [hk t hm]
          have hq := e (hk t hm)
          subst hq
          simp only [updCal, if_true, seen]
          split_ifs <;> rfl
        · rw [if_neg (fun h => hm h.2)]
          split
          · simp only [updCal, if_true]
            rw [if_neg (fun h => hm h.2)]
          · rename_i w hw
            split_ifs
            · exact updCal_fname _ _ _ _ _ _ _ (kind_coefs_ne_zero hw)
            · rfl
          · rfl
      rw [hl]
      by_cases hf : cal.fname = none
      · by_cases hm : t ∈ bandTags lid cal.band 0
        · simp only [hf, hm, and_self, if_true, reduceCtorEq, if_false]
          rw [firstValue, if_pos ((hn t).1 hm)]
          rfl
        · simp only [hf, hm, and_false, if_true, if_false]
          rw [firstValue, if_neg (fun h => hm ((hn t).2 h))]
      · simp only [hf, false_and, if_false]
    | date n t y m dd => rfl
    | clock n t a b c => rfl
    | other x => rfl

end Verif.Meta
