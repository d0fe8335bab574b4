import Verif.Homo.Select
import Mathlib.Algebra.BigOperators.Group.List.Basic
import Mathlib.Tactic.Ring
import Mathlib.Tactic.FieldSimp
import Mathlib.Tactic.IntervalCases

/-!
# Predictions and images
-/

namespace Verif.Homo

open Verif.Str Verif.Homo.Spec

theorem wsum {α : Type} (w v : α → ℝ) (lo hi : ℝ) : ∀ u : List α, (∀ x ∈ u, 0 ≤ w x) →
    (∀ x ∈ u, lo ≤ v x ∧ v x ≤ hi) → 0 ≤ (u.map w).sum ∧
      lo * (u.map w).sum ≤ (u.map fun x => w x * v x).sum ∧
      (u.map fun x => w x * v x).sum ≤ hi * (u.map w).sum := by
  intro u
  induction u with
  | nil => intro _ _; simp
  | cons a u ih =>
    intro hw hv
    obtain ⟨i0, i1, i2⟩ := ih (fun x hx => hw x (by simp [hx])) (fun x hx => hv x (by simp [hx]))
    have wa := hw a (by simp)
    obtain ⟨va, vb⟩ := hv a (by simp)
    simp only [List.map_cons, List.sum_cons]
    refine ⟨by linarith, ?_, ?_⟩ <;> nlinarith

/-- The sum of the weights is positive. -/
theorem sum_pos (w : Nat → ℝ) (hw : ∀ s, 0 ≤ w s) (h : 0 < w 50) (hsel : ∀ e ∈ selected w, 0 ≤ e.2) :
    0 < ((selected w).map fun c => c.2).sum := by
  by_cases hE : Elig w (firstMax w).1
  · have e : selected w = ((firstMax w).2, (firstMax w).1) :: select 9 (without w (firstMax w).2)
        (nextMax (without w (firstMax w).2) (firstMax w).2) := select_pos hE
    rw [e] at hsel ⊢
    have := (wsum (fun c : Nat × ℝ => c.2) (fun _ => (0 : ℝ)) 0 0 _ (fun x hx => hsel x (List.mem_cons_of_mem _ hx))
      (fun _ _ => ⟨le_refl _, le_refl _⟩)).1
    rw [List.map_cons, List.sum_cons]
    have := elig_med hE
    have := med_pos
    simp only
    linarith
  · have e : selected w = [(50, w 50)] := select_neg hE
    rw [e]
    simpa using h

theorem truncR_between {x : ℝ} {lo hi : ℤ} (h1 : (lo : ℝ) ≤ x) (h2 : x ≤ hi) : lo ≤ truncR x ∧ truncR x ≤ hi := by
  unfold truncR
  split
  · refine ⟨Int.le_floor.2 h1, ?_⟩
    have : ((⌊x⌋ : ℤ) : ℝ) ≤ hi := le_trans (Int.floor_le x) h2
    exact_mod_cast this
  · refine ⟨?_, Int.ceil_le.2 h2⟩
    have : (lo : ℝ) ≤ ⌈x⌉ := le_trans h1 (Int.le_ceil x)
    exact_mod_cast this

theorem regress_eq (coef : List ℝ) (x : List ℤ) : regress coef x = Spec.predict coef x := by
  unfold regress Spec.predict
  induction x generalizing coef with
  | nil => simp
  | cons a x ih =>
    cases coef with
    | nil => simp
    | cons k coef =>
      have := ih coef
      simp only [List.zip_cons_cons, List.map_cons, List.sum_cons, List.length_cons, List.getD_cons_succ, Finset.sum_range_succ',
        List.getD_cons_zero] at this ⊢
      linarith

/-- C195: an adjusted value lies between the predictions of the regressions for the clusters that are
closer than 12 degrees and the global one. -/
theorem c195_range (t : Tables) (ndst : Nat) (x : List ℤ) (b : Nat) (hb : b < ndst) (lo hi : ℤ)
    (hg : sam x (t.center 50) ≠ 0.2617995)
    (h : ∀ s, s = 50 ∨ (s < 50 ∧ sam x (t.center s) < 0.2094395) →
      (lo : ℝ) ≤ Spec.predict (t.coef b s) x ∧ Spec.predict (t.coef b s) x ≤ hi) :
    ∃ v, (adjustPixel t ndst x)[b]? = some v ∧ lo ≤ v ∧ v ≤ hi := by
  refine ⟨truncR (mean (selected fun s => weight (sam x (t.center s))) fun s => regress (t.coef b s) x), ?_, ?_⟩
  · unfold adjustPixel
    simp [hb]
  · have hw : ∀ s, 0 ≤ (fun s => weight (sam x (t.center s))) s := fun s => weight_nonneg _
    obtain ⟨f1, f2, f3, f4⟩ := firstMax_spec (fun s => weight (sam x (t.center s))) hw
    obtain ⟨g1, -⟩ := select_used 10 _ _ hw f1 f3
    have h50 : 0 < weight (sam x (t.center 50)) := by
      rcases lt_or_eq_of_le (weight_nonneg (sam x (t.center 50))) with k | k
      · exact k
      · exfalso
        unfold weight at k
        split at k
        · norm_num at k
        · apply hg
          have p : (poor : ℝ) ≠ 0 := by unfold poor; norm_num
          have : sam x (t.center 50) / poor = 1 := by linarith
          rw [div_eq_one_iff_eq p] at this
          rw [this]; rfl
    have hsum := sum_pos (fun s => weight (sam x (t.center s))) hw h50 (fun e he => (g1 e he).2.1)
    obtain ⟨k0, k1, k2⟩ := wsum (fun c : Nat × ℝ => c.2) (fun c => regress (t.coef b c.1) x) lo hi
      (selected fun s => weight (sam x (t.center s))) (fun e he => (g1 e he).2.1) (fun e he => by
        rw [regress_eq]
        apply h
        have := (c196_close fun s => sam x (t.center s)).1 e.1 (List.mem_map.2 ⟨e, he, rfl⟩)
        exact this)
    apply truncR_between
    · unfold mean
      rw [le_div_iff₀ hsum]
      exact k1
    · unfold mean
      rw [div_le_iff₀ hsum]
      exact k2

theorem dot_scale (k : ℤ) : ∀ x y : List ℤ, dot (x.map (k * ·)) y = k * dot x y := by
  intro x
  induction x with
  | nil => intro y; simp [dot]
  | cons a x ih =>
    intro y
    cases y with
    | nil => simp [dot]
    | cons b y =>
      have := ih y
      unfold dot at this ⊢
      simp only [List.map_cons, List.zip_cons_cons, List.sum_cons, this]
      ring

theorem dot_comm : ∀ x y : List ℤ, dot x y = dot y x := by
  intro x
  induction x with
  | nil => intro y; simp [dot]
  | cons a x ih =>
    intro y
    cases y with
    | nil => simp [dot]
    | cons b y =>
      have := ih y
      unfold dot at this ⊢
      simp only [List.map_cons, List.zip_cons_cons, List.sum_cons, this]
      ring

/-- C196: the selection does not depend on the brightness of the pixel: a spectrum that is `k` times as
bright gets the same clusters with the same weights. -/
theorem c196_brightness (center : Nat → List ℤ) (x : List ℤ) (k : ℤ) (hk : 0 < k) :
    (selected fun s => weight (sam (x.map (k * ·)) (center s))) = selected fun s => weight (sam x (center s)) := by
  have key : ∀ y, sam (x.map (k * ·)) y = sam x y := by
    intro y
    have e1 : dot (x.map (k * ·)) (x.map (k * ·)) = k * (k * dot x x) := by
      rw [dot_scale, dot_comm, dot_scale]
    have e2 : dot (x.map (k * ·)) y = k * dot x y := dot_scale k x y
    unfold sam
    rw [e1, e2]
    have hp : 0 < k * (k * dot x x) ↔ 0 < dot x x := by
      rw [mul_pos_iff_of_pos_left hk, mul_pos_iff_of_pos_left hk]
    by_cases h : 0 < dot x x ∧ 0 < dot y y
    · rw [if_pos h, if_pos ⟨hp.2 h.1, h.2⟩]
      have hkR : (0 : ℝ) < k := by exact_mod_cast hk
      have e3 : (((k * (k * dot x x) : ℤ) : ℝ) * (dot y y : ℝ)) = (k : ℝ) ^ 2 * ((dot x x : ℝ) * dot y y) := by
        push_cast; ring
      rw [e3, Real.sqrt_mul (by positivity), Real.sqrt_sq (le_of_lt hkR)]
      push_cast
      rw [mul_div_mul_left _ _ (ne_of_gt hkR)]
    · rw [if_neg h, if_neg (fun h' => h ⟨hp.1 h'.1, h'.2⟩)]
  simp only [key]

theorem dst_nodup : dstDomain.Nodup := by decide

theorem findDomain_some {l : List String} {d : String} {b : Nat} (h : findDomain l d = some b) : l[b]? = some d := by
  unfold findDomain at h
  rw [List.findIdx?_eq_some_iff_getElem] at h
  obtain ⟨hb, h1, -⟩ := h
  rw [List.getElem?_eq_getElem hb]
  simpa using h1

theorem mapM_get {f : String → Option Nat} : ∀ {l : List String} {r : List Nat}, l.mapM f = some r →
    r.length = l.length ∧ ∀ (i : Nat) (d : String), l[i]? = some d → ∃ b, r[i]? = some b ∧ f d = some b := by
  intro l
  induction l with
  | nil =>
    intro r h
    have : r = [] := by simpa using h.symm
    subst this
    exact ⟨rfl, fun i d h => by simp at h⟩
  | cons a l ih =>
    intro r h
    rw [List.mapM_cons] at h
    cases ha : f a with
    | none => rw [ha] at h; cases h
    | some b =>
      rw [ha] at h
      cases hl : l.mapM f with
      | none => rw [hl] at h; cases h
      | some r' =>
        rw [hl] at h
        have e : r = b :: r' := (Option.some.inj h).symm
        subst e
        obtain ⟨i1, i2⟩ := ih hl
        refine ⟨by simp [i1], ?_⟩
        intro i d hd
        cases i with
        | zero =>
          simp only [List.getElem?_cons_zero, Option.some.injEq] at hd
          subst hd
          exact ⟨b, by simp, ha⟩
        | succ i =>
          rw [List.getElem?_cons_succ] at hd ⊢
          exact i2 i d hd

theorem mapM_isSome {f : String → Option Nat} : ∀ {l : List String}, (∀ d ∈ l, (f d).isSome) → (l.mapM f).isSome := by
  intro l
  induction l with
  | nil => intro _; rfl
  | cons a l ih =>
    intro h
    rw [List.mapM_cons]
    obtain ⟨b, hb⟩ := Option.isSome_iff_exists.1 (h a (by simp))
    obtain ⟨r, hr⟩ := Option.isSome_iff_exists.1 (ih fun d hd => h d (by simp [hd]))
    rw [hb, hr]
    rfl

theorem fold_other {b : Nat} : ∀ (l : List (Nat × ℤ)) (v : ℤ), (∀ c ∈ l, c.1 ≠ b) →
    l.foldl (fun v c => if c.1 = b then c.2 else v) v = v := by
  intro l
  induction l with
  | nil => intro v _; rfl
  | cons a l ih =>
    intro v h
    rw [List.foldl_cons, if_neg (h a (by simp))]
    exact ih v fun c hc => h c (by simp [hc])

theorem fold_hit : ∀ (l : List Nat) (r : List ℤ) (v : ℤ) (i b : Nat) (x : ℤ), l.Nodup → l[i]? = some b → r[i]? = some x →
    (l.zip r).foldl (fun v c => if c.1 = b then c.2 else v) v = x := by
  intro l
  induction l with
  | nil => intro r v i b x _ h; simp at h
  | cons a l ih =>
    intro r v i b x hn hl hr
    cases r with
    | nil => simp at hr
    | cons y r =>
      rw [List.zip_cons_cons, List.foldl_cons]
      rw [List.nodup_cons] at hn
      cases i with
      | zero =>
        simp only [List.getElem?_cons_zero, Option.some.injEq] at hl hr
        subst hl hr
        rw [if_pos rfl]
        apply fold_other
        intro c hc
        have := (List.of_mem_zip hc).1
        intro e
        rw [e] at this
        exact hn.1 this
      | succ i =>
        rw [List.getElem?_cons_succ] at hl hr
        exact ih r _ i b x hn.2 hl hr

theorem nodup_bands {dom : List String} {dst : List Nat} (h : dstDomain.mapM (findDomain dom) = some dst) : dst.Nodup := by
  obtain ⟨h1, h2⟩ := mapM_get h
  rw [List.nodup_iff_getElem?_ne_getElem?]
  intro i j hij hj hc
  have hj' : j < dstDomain.length := by omega
  obtain ⟨b, e1, e2⟩ := h2 i _ (List.getElem?_eq_getElem (by omega))
  obtain ⟨b', e3, e4⟩ := h2 j _ (List.getElem?_eq_getElem hj')
  have eb : b = b' := by
    have : some b = some b' := by rw [← e1, ← e3]; exact hc
    exact Option.some.inj this
  subst eb
  have := (findDomain_some e2).symm.trans (findDomain_some e4)
  have hne := (List.nodup_iff_getElem?_ne_getElem?.1 dst_nodup) i j hij hj'
  rw [List.getElem?_eq_getElem (by omega), List.getElem?_eq_getElem hj'] at hne
  exact hne this

/-- What may be relied on for one image. -/
theorem adjustOne_ok {tables : Nat → Tables} {mask : Nat → Bool} {im im' : Image}
    (h : adjustOne tables mask im = .ok im') :
    im'.sensor = im.sensor ∧ im'.domain = im.domain ∧ im'.msk = im.msk ∧
    (im.sensor ∉ ["LND04", "LND05", "LND07", "LND08", "LND09", "MOD01", "MOD02"] → im' = im) ∧
    (∀ b p, mask p = false ∨ im.msk p = false → im'.dat b p = im.dat b p) ∧
    (∀ (b p : Nat), (∀ d ∈ dstDomain, im.domain[b]? ≠ some d) → im'.dat b p = im.dat b p) := by
  unfold adjustOne at h
  cases hs : sensors.findIdx? (fun s => s = im.sensor) with
  | none =>
    rw [hs] at h
    simp only at h
    split at h
    · cases h
    · split at h
      · cases h
      · cases h
        exact ⟨rfl, rfl, rfl, fun _ => rfl, fun _ _ _ => rfl, fun _ _ _ => rfl⟩
  | some s =>
    rw [hs] at h
    simp only at h
    cases hp : predict (tables s) mask im with
    | none => rw [hp] at h; cases h
    | some r =>
      rw [hp] at h
      cases h
      unfold predict at hp
      split at hp
      · rename_i src dst e1 e2
        cases hp
        refine ⟨rfl, rfl, rfl, ?_, ?_, ?_⟩
        · intro hn
          exfalso
          apply hn
          rw [List.findIdx?_eq_some_iff_getElem] at hs
          obtain ⟨hl, hs, -⟩ := hs
          have : sensors[s] = im.sensor := by simpa using hs
          rw [← this]
          exact List.getElem_mem hl
        · intro b p hm
          show newDat _ _ _ _ _ _ _ = _
          unfold newDat
          rw [if_neg]
          rintro ⟨k1, k2⟩
          rcases hm with hm | hm <;> simp_all
        · intro b p hd
          show newDat _ _ _ _ _ _ _ = _
          unfold newDat
          split
          · apply fold_other
            intro c hc
            have hc1 := (List.of_mem_zip hc).1
            intro e
            rw [e] at hc1
            obtain ⟨i, hi⟩ := List.mem_iff_getElem?.1 hc1
            obtain ⟨l1, l2⟩ := mapM_get e2
            have hi' : i < dstDomain.length := by
              rw [← l1]
              exact (List.getElem?_eq_some_iff.1 hi).1
            obtain ⟨b', k1, k2⟩ := l2 i _ (List.getElem?_eq_getElem hi')
            have : b' = b := by rw [hi] at k1; exact (Option.some.inj k1).symm
            subst this
            exact hd _ (List.getElem_mem hi') (findDomain_some k2)
          · rfl
      · cases hp

theorem adjust_get {tables : Nat → Tables} {mask : Nat → Bool} : ∀ {l r : List Image}, adjust tables mask l = .ok r →
    r.length = l.length ∧ ∀ (i : Nat) (im : Image), l[i]? = some im → ∃ im' : Image, r[i]? = some im' ∧ adjustOne tables mask im = .ok im' := by
  intro l
  induction l with
  | nil =>
    intro r h
    cases h
    exact ⟨rfl, fun i im h => by simp at h⟩
  | cons a l ih =>
    intro r h
    unfold adjust at h
    cases ha : adjustOne tables mask a with
    | exit => rw [ha] at h; cases h
    | ub => rw [ha] at h; cases h
    | ok a' =>
      rw [ha] at h
      cases hl : adjust tables mask l with
      | exit => rw [hl] at h; cases h
      | ub => rw [hl] at h; cases h
      | ok r' =>
        rw [hl] at h
        cases h
        obtain ⟨i1, i2⟩ := ih hl
        refine ⟨by simp [i1], ?_⟩
        intro i im hi
        cases i with
        | zero =>
          simp only [List.getElem?_cons_zero, Option.some.injEq] at hi
          subst hi
          exact ⟨a', by simp, ha⟩
        | succ i =>
          rw [List.getElem?_cons_succ] at hi ⊢
          exact i2 i im hi

/-- C197: the adjustment keeps number, order, sensors, bands and masks of the images. It changes only
images of the seven sensors that are adjusted, only pixels that are usable and inside the processing
mask, and only bands of the ten target domains. -/
theorem c197_only (tables : Nat → Tables) (mask : Nat → Bool) (l r : List Image) (h : adjust tables mask l = .ok r) :
    r.length = l.length ∧ ∀ (i : Nat) (im : Image), l[i]? = some im → ∃ im' : Image, r[i]? = some im' ∧
      im'.sensor = im.sensor ∧ im'.domain = im.domain ∧ im'.msk = im.msk ∧
      (im.sensor ∉ ["LND04", "LND05", "LND07", "LND08", "LND09", "MOD01", "MOD02"] → im' = im) ∧
      (∀ b p, mask p = false ∨ im.msk p = false → im'.dat b p = im.dat b p) ∧
      (∀ (b p : Nat), (∀ d ∈ ["BLUE", "GREEN", "RED", "REDEDGE1", "REDEDGE2", "REDEDGE3", "BROADNIR", "NIR", "SWIR1", "SWIR2"],
        im.domain[b]? ≠ some d) → im'.dat b p = im.dat b p) := by
  obtain ⟨h1, h2⟩ := adjust_get h
  refine ⟨h1, fun i im hi => ?_⟩
  obtain ⟨im', k1, k2⟩ := h2 i im hi
  exact ⟨im', k1, adjustOne_ok k2⟩

/-- C197: the ten target bands of a usable pixel of an adjusted sensor are predicted from the values
that its six source bands had before, although some of these bands are overwritten. -/
theorem c197_written (tables : Nat → Tables) (mask : Nat → Bool) (l r : List Image) (h : adjust tables mask l = .ok r)
    (i : Nat) (im im' : Image) (hi : l[i]? = some im) (hr : r[i]? = some im') (s : Nat)
    (hs : ["LND04", "LND05", "LND07", "LND08", "LND09", "MOD01", "MOD02"][s]? = some im.sensor)
    (hd : im.domain.Nodup) (p : Nat) (hm : mask p = true) (hm' : im.msk p = true)
    (x : List ℤ) (hx : x.length = 6)
    (hsrc : ∀ (j : Nat) (d : String) (b : Nat), ["BLUE", "GREEN", "RED", "NIR", "SWIR1", "SWIR2"][j]? = some d → im.domain[b]? = some d →
      x[j]? = some (im.dat b p))
    (k b : Nat) (d : String)
    (hk : ["BLUE", "GREEN", "RED", "REDEDGE1", "REDEDGE2", "REDEDGE3", "BROADNIR", "NIR", "SWIR1", "SWIR2"][k]? = some d)
    (hb : im.domain[b]? = some d) :
    (adjustPixel (tables s) 10 x)[k]? = some (im'.dat b p) := by
  obtain ⟨h1, h2⟩ := adjust_get h
  obtain ⟨im2, k1, k2⟩ := h2 i im hi
  rw [hr] at k1
  cases k1
  unfold adjustOne at k2
  have hsf : sensors.findIdx? (fun s => s = im.sensor) = some s := by
    change sensors[s]? = some im.sensor at hs
    rw [List.findIdx?_eq_some_iff_getElem]
    obtain ⟨hl, e⟩ := List.getElem?_eq_some_iff.1 hs
    refine ⟨hl, by simpa using e, ?_⟩
    intro j hj
    rw [← e]
    have nd : sensors.Nodup := by decide
    have := (List.nodup_iff_getElem?_ne_getElem?.1 nd) j s hj hl
    rw [List.getElem?_eq_getElem (by omega), List.getElem?_eq_getElem hl] at this
    simp only [decide_eq_true_eq]
    exact fun hc => this (congrArg some hc)
  rw [hsf] at k2
  simp only at k2
  cases hp : predict (tables s) mask im with
  | none => rw [hp] at k2; cases k2
  | some r' =>
    rw [hp] at k2
    cases k2
    unfold predict at hp
    split at hp
    · rename_i src dst e1 e2
      cases hp
      show _ = some (newDat _ _ _ _ _ _ _)
      unfold newDat
      rw [if_pos ⟨hm, hm'⟩]
      have uniq : ∀ (d : String) (b b' : Nat), findDomain im.domain d = some b → im.domain[b']? = some d → b = b' := by
        intro d b b' f1 f2
        have f3 := findDomain_some f1
        exact (List.getElem?_inj (List.getElem?_eq_some_iff.1 f3).1 hd).1 (f3.trans f2.symm)
      obtain ⟨s1, s2⟩ := mapM_get e1
      obtain ⟨d1, d2⟩ := mapM_get e2
      have hxe : (src.map fun b' => im.dat b' p) = x := by
        apply List.ext_getElem?
        intro j
        by_cases hj : j < 6
        · have hj' : j < srcDomain.length := hj
          obtain ⟨b', q1, q2⟩ := s2 j _ (List.getElem?_eq_getElem hj')
          rw [List.getElem?_map, q1]
          exact (hsrc j _ b' (List.getElem?_eq_getElem hj') (findDomain_some q2)).symm
        · rw [List.getElem?_eq_none (by rw [List.length_map, s1]; exact Nat.not_lt.1 hj),
            List.getElem?_eq_none (by omega)]
      have hlen : dst.length = 10 := d1
      rw [hxe, hlen]
      obtain ⟨b', q1, q2⟩ := d2 k d hk
      have := uniq d b' b q2 hb
      subst this
      have hk10 : k < 10 := (List.getElem?_eq_some_iff.1 hk).1
      have hex : ∃ v, (adjustPixel (tables s) 10 x)[k]? = some v := by
        unfold adjustPixel
        simp [hk10]
      obtain ⟨v, hv⟩ := hex
      rw [fold_hit dst _ _ k b' v (nodup_bands e2) q1 hv, hv]
    · cases hp

/-- C197: the run continues if and only if every image has bands of all ten target domains, and exactly
ten bands if its sensor is not adjusted; otherwise the program stops. -/
theorem c197_stop (tables : Nat → Tables) (mask : Nat → Bool) (l : List Image) :
    ((∃ r, adjust tables mask l = .ok r) ↔ ∀ im ∈ l,
      (∀ d ∈ ["BLUE", "GREEN", "RED", "REDEDGE1", "REDEDGE2", "REDEDGE3", "BROADNIR", "NIR", "SWIR1", "SWIR2"],
        d ∈ im.domain) ∧
      (im.sensor ∉ ["LND04", "LND05", "LND07", "LND08", "LND09", "MOD01", "MOD02"] → im.domain.length = 10)) ∧
    ((¬ ∃ r, adjust tables mask l = .ok r) → adjust tables mask l = .exit) := by
  have find : ∀ (l : List String) d, (findDomain l d).isSome ↔ d ∈ l := by
    intro l d
    unfold findDomain
    rw [List.findIdx?_isSome]
    simp
  have one : ∀ im : Image, ((∃ r, adjustOne tables mask im = .ok r) ↔
      (∀ d ∈ dstDomain, d ∈ im.domain) ∧ (im.sensor ∉ sensors → im.domain.length = 10)) ∧
      ((∃ r, adjustOne tables mask im = .ok r) ∨ adjustOne tables mask im = .exit) := by
    intro im
    unfold adjustOne
    cases hs : sensors.findIdx? (fun s => s = im.sensor) with
    | none =>
      have hns : im.sensor ∉ sensors := by
        intro hc
        rw [List.findIdx?_eq_none_iff] at hs
        have := hs _ hc
        simp at this
      simp only
      have len : dstDomain.length = 10 := rfl
      by_cases h1 : im.domain.length ≠ dstDomain.length
      · rw [if_pos h1]
        refine ⟨⟨fun ⟨r, h⟩ => (by cases h), fun ⟨_, h⟩ => absurd (h hns) h1⟩, Or.inr rfl⟩
      · rw [if_neg h1]
        by_cases h2 : dstDomain.any (fun d => (findDomain im.domain d).isNone) = true
        · rw [if_pos h2]
          refine ⟨⟨fun ⟨r, h⟩ => (by cases h), fun ⟨h, _⟩ => ?_⟩, Or.inr rfl⟩
          rw [List.any_eq_true] at h2
          obtain ⟨d, hd, k⟩ := h2
          have := (find im.domain d).2 (h d hd)
          rw [Option.isNone_iff_eq_none] at k
          rw [k] at this
          cases this
        · rw [if_neg h2]
          refine ⟨⟨fun _ => ⟨?_, fun _ => by rw [not_not] at h1; exact h1⟩, fun _ => ⟨im, rfl⟩⟩, Or.inl ⟨im, rfl⟩⟩
          intro d hd
          rw [← find]
          by_contra hc
          apply h2
          rw [List.any_eq_true]
          exact ⟨d, hd, by rw [Option.not_isSome_iff_eq_none] at hc; rw [hc]; rfl⟩
    | some s =>
      have hin : im.sensor ∈ sensors := by
        rw [List.findIdx?_eq_some_iff_getElem] at hs
        obtain ⟨hl, hs, -⟩ := hs
        have : sensors[s] = im.sensor := by simpa using hs
        rw [← this]
        exact List.getElem_mem hl
      simp only
      by_cases hall : ∀ d ∈ dstDomain, d ∈ im.domain
      · have i2 := mapM_isSome (f := findDomain im.domain) (l := dstDomain) fun d hd => (find _ _).2 (hall d hd)
        have i1 := mapM_isSome (f := findDomain im.domain) (l := srcDomain) fun d hd =>
          (find _ _).2 (hall d (by revert d; decide))
        obtain ⟨a1, e1⟩ := Option.isSome_iff_exists.1 i1
        obtain ⟨a2, e2⟩ := Option.isSome_iff_exists.1 i2
        have : predict (tables s) mask im = some { im with dat := newDat (tables s) mask im a1 a2 } := by
          unfold predict
          rw [e1, e2]
        rw [this]
        exact ⟨⟨fun _ => ⟨hall, fun h => absurd hin h⟩, fun _ => ⟨_, rfl⟩⟩, Or.inl ⟨_, rfl⟩⟩
      · have : predict (tables s) mask im = none := by
          unfold predict
          split
          · rename_i src dst e1 e2
            exfalso
            apply hall
            intro d hd
            obtain ⟨l1, l2⟩ := mapM_get e2
            obtain ⟨i, hi⟩ := List.mem_iff_getElem?.1 hd
            obtain ⟨b, -, k⟩ := l2 i d hi
            rw [← find, k]
            rfl
          · rfl
        rw [this]
        exact ⟨⟨fun ⟨r, h⟩ => (by cases h), fun h => absurd h.1 hall⟩, Or.inr rfl⟩
  induction l with
  | nil => exact ⟨⟨fun _ im h => by simp at h, fun _ => ⟨[], rfl⟩⟩, fun h => absurd ⟨[], rfl⟩ h⟩
  | cons a l ih =>
    obtain ⟨o1, o2⟩ := one a
    obtain ⟨i1, i2⟩ := ih
    rcases o2 with ⟨a', ha⟩ | ha
    · by_cases hl : ∃ r, adjust tables mask l = .ok r
      · obtain ⟨r, hr⟩ := hl
        have e : adjust tables mask (a :: l) = .ok (a' :: r) := by
          rw [adjust, ha]
          show (adjust tables mask l).bind _ = _
          rw [hr]
          rfl
        refine ⟨⟨fun _ im him => ?_, fun _ => ⟨_, e⟩⟩, fun h => absurd ⟨_, e⟩ h⟩
        rcases List.mem_cons.1 him with rfl | him
        · exact o1.1 ⟨a', ha⟩
        · exact i1.1 ⟨r, hr⟩ im him
      · have e : adjust tables mask (a :: l) = .exit := by
          rw [adjust, ha]
          show (adjust tables mask l).bind _ = _
          rw [i2 hl]
          rfl
        refine ⟨⟨fun ⟨r, h⟩ => (by rw [e] at h; cases h), fun h => ?_⟩, fun _ => e⟩
        exact absurd (i1.2 fun im him => h im (List.mem_cons_of_mem _ him)) hl
    · have e : adjust tables mask (a :: l) = .exit := by
        rw [adjust, ha]
        rfl
      refine ⟨⟨fun ⟨r, h⟩ => (by rw [e] at h; cases h), fun h => ?_⟩, fun _ => e⟩
      obtain ⟨a', ha'⟩ := o1.2 (h a (by simp))
      rw [ha] at ha'
      cases ha'

end Verif.Homo
