import Verif.Bap.Props

/-!
# Further properties of the compositing: independence of the pixels, values of the DOY score, weighting,
correlation
-/

namespace Verif.Bap

open Verif.Str (Out)
open Verif.Fold (truncR shortOf)
open Spec

section
open Classical

/-! ## Independence of the pixels (C53) -/

/-- Same observation; same scores if it is valid. -/
def Same (x y : Obs × Score × Int) : Prop := x.1 = y.1 ∧ (x.1.msk = true → x = y)

/-- Same kind of outcome, related values. -/
inductive OutRel {α : Type} (R : α → α → Prop) : Out α → Out α → Prop where
  | ok {a b : α} (h : R a b) : OutRel R (.ok a) (.ok b)
  | exit : OutRel R .exit .exit
  | ub : OutRel R .ub .ub

theorem scoreObs_same {exp : ℝ → ℝ} {p : Par} {t0 : Target} {ts : List Target} {o : Obs} (old old' : Score × Int)
    (hc : o.msk = true → ¬ corrupt (closest o.ce t0 ts)) :
    OutRel (fun a b => Same (o, a) (o, b)) (scoreObs exp p t0 ts o old) (scoreObs exp p t0 ts o old') := by
  unfold scoreObs
  by_cases hm : o.msk = true
  · simp only [hm, Bool.not_true, Bool.false_eq_true, if_false, if_neg (hc hm)]
    cases temporal exp p (closest o.ce t0 ts) o with
    | ok x => exact .ok ⟨rfl, fun _ => rfl⟩
    | exit => exact .exit
    | ub => exact .ub
  · simp only [hm, Bool.not_false, if_true]
    exact .ok ⟨rfl, fun h => absurd h hm⟩

theorem scoreAll_same {exp : ℝ → ℝ} {p : Par} {t0 : Target} {ts : List Target} :
    ∀ (os : List Obs) (old old' : List (Score × Int)), os.length = old.length → os.length = old'.length →
    (∀ o ∈ os, o.msk = true → ¬ corrupt (closest o.ce t0 ts)) →
    OutRel (List.Forall₂ Same) (scoreAll exp p t0 ts (os.zip old)) (scoreAll exp p t0 ts (os.zip old'))
  | [], _, _, _, _, _ => by simpa [scoreAll] using OutRel.ok (List.Forall₂.nil)
  | o :: os, a :: old, b :: old', h1, h2, hc => by
    have ih := scoreAll_same (exp := exp) (p := p) os old old' (by simpa using h1) (by simpa using h2)
      fun o ho => hc o (List.mem_cons_of_mem _ ho)
    have hs := scoreObs_same (exp := exp) (p := p) a b (hc o List.mem_cons_self)
    simp only [List.zip_cons_cons, scoreAll]
    revert hs
    generalize scoreObs exp p t0 ts o a = x
    generalize scoreObs exp p t0 ts o b = y
    intro hs
    cases hs with
    | exit => exact .exit
    | ub => exact .ub
    | ok h =>
      revert ih
      generalize scoreAll exp p t0 ts (os.zip old) = x
      generalize scoreAll exp p t0 ts (os.zip old') = y
      intro ih
      cases ih with
      | exit => exact .exit
      | ub => exact .ub
      | ok h' => exact .ok (.cons h h')

theorem same_skipped {p : Par} {hz : Prop} {x y : Obs × Score × Int} (h : Same x y) :
    skipped p hz x.1 x.2.1 = skipped p hz y.1 y.2.1 := by
  by_cases hm : x.1.msk = true
  · rw [h.2 hm]
  · have hm' : ¬ y.1.msk = true := by rw [← h.1]; exact hm
    simp [skipped, hm, hm']

theorem select_same {p : Par} {hz : Prop} {l l' : List (Obs × Score × Int)} (h : List.Forall₂ Same l l') :
    ∀ s, select p hz l s = select p hz l' s := by
  induction h with
  | nil => intro s; rfl
  | @cons x y l l' hxy _ ih =>
    rintro ⟨n, b, a⟩
    have hs := same_skipped (p := p) (hz := hz) hxy
    by_cases hk : skipped p hz x.1 x.2.1 = true
    · simp only [select, hk, ← hs, if_true, ih]
    · have hk' := hk
      rw [Bool.not_eq_true, skipped_iff] at hk'
      have he := hxy.2 hk'.1
      subst he
      simp only [select, hk, ih]

theorem haze_same {p : Par} {l l' : List (Obs × Score × Int)} (h : List.Forall₂ Same l l') :
    hazeStats p l = hazeStats p l' := by
  have : (l.filter fun x => x.1.msk && !(decide (!p.offsea ∧ lt x.2.1.d 0.01))).map (fun x => x.2.1.h.getD 0) =
      (l'.filter fun x => x.1.msk && !(decide (!p.offsea ∧ lt x.2.1.d 0.01))).map (fun x => x.2.1.h.getD 0) := by
    induction h with
    | nil => rfl
    | @cons x y l l' hxy _ ih =>
      by_cases hm : x.1.msk = true
      · have he := hxy.2 hm
        subst he
        simp only [List.filter_cons]
        split
        · simp only [List.map_cons, ih]
        · exact ih
      · have hm' : ¬ y.1.msk = true := by rw [← hxy.1]; exact hm
        rw [List.filter_cons_of_neg (by simp [hm]), List.filter_cons_of_neg (by simp [hm'])]
        exact ih
  unfold hazeStats
  rw [this]

theorem composite_same {p : Par} {hz water : Prop} {nb : Nat} {nodata : Int} {l l' : List (Obs × Score × Int)}
    (h : List.Forall₂ Same l l') : composite p hz water nb nodata l = composite p hz water nb nodata l' := by
  unfold composite
  rw [select_same h]

theorem water_same {scale : ℝ} {l l' : List (Obs × Score × Int)} (h : List.Forall₂ Same l l') :
    List.Forall₂ Same (l.map fun x => (x.1, waterObs scale x.1 x.2.1, x.2.2))
      (l'.map fun x => (x.1, waterObs scale x.1 x.2.1, x.2.2)) := by
  induction h with
  | nil => exact .nil
  | cons hxy _ ih =>
    refine .cons ⟨hxy.1, fun hm => ?_⟩ ih
    rw [hxy.2 hm]

/-- C53: the outcome for a pixel does not depend on what the arrays contain before, that is on the pixels the
thread has processed before, if the target of no valid observation is corrupt. -/
theorem c53_independent_partial (exp : ℝ → ℝ) (p : Par) (t0 : Target) (ts : List Target) (bands : Bool)
    (scale : ℝ) (nb : Nat) (nodata : Int) (os : List Obs) (old old' : List (Score × Int))
    (h1 : os.length = old.length) (h2 : os.length = old'.length)
    (hc : ∀ o ∈ os, o.msk = true → ¬ corrupt (closest o.ce t0 ts)) :
    OutRel (fun a b => a.1 = b.1 ∧ a.2.length = os.length ∧ b.2.length = os.length)
      (pixel exp p t0 ts bands scale nb nodata os old) (pixel exp p t0 ts bands scale nb nodata os old') := by
  have hs := scoreAll_same (exp := exp) (p := p) os old old' h1 h2 hc
  have hlen : ∀ (l : List (Obs × Score × Int)) r, scoreAll exp p t0 ts l = .ok r → r.length = l.length := by
    intro l
    induction l with
    | nil => intro r h; simp only [scoreAll, Out.ok.injEq] at h; subst h; rfl
    | cons x l ih =>
      intro r h
      obtain ⟨o, a⟩ := x
      simp only [scoreAll] at h
      cases e1 : scoreObs exp p t0 ts o a with
      | exit => rw [e1] at h; simp [Out.bind] at h
      | ub => rw [e1] at h; simp [Out.bind] at h
      | ok s =>
        rw [e1] at h
        cases e2 : scoreAll exp p t0 ts l with
        | exit => rw [e2] at h; simp [Out.bind] at h
        | ub => rw [e2] at h; simp [Out.bind] at h
        | ok s' =>
          rw [e2] at h
          simp only [Out.bind, Out.ok.injEq] at h
          rw [← h]; simp [ih s' e2]
  have l1 := hlen (os.zip old)
  have l2 := hlen (os.zip old')
  unfold pixel
  revert hs l1 l2
  generalize scoreAll exp p t0 ts (os.zip old) = x
  generalize scoreAll exp p t0 ts (os.zip old') = y
  intro hs l1 l2
  cases hs with
  | exit => exact .exit
  | ub => exact .ub
  | @ok l l' h =>
    have l1 := l1 l rfl
    have l2 := l2 l' rfl
    simp only [List.length_zip] at l1 l2
    simp only [Out.bind]
    by_cases hw : bands = true ∧ isWater os
    · simp only [if_pos hw]
      have h' := water_same (scale := scale) h
      rw [haze_same (p := p) h', composite_same h']
      cases composite p _ (isWater os) nb nodata (l'.map fun x => (x.1, waterObs scale x.1 x.2.1, x.2.2)) with
      | exit => exact .exit
      | ub => exact .ub
      | ok r => exact .ok ⟨rfl, by simp [l1]; omega, by simp [l2]; omega⟩
    · simp only [if_neg hw]
      rw [haze_same (p := p) h, composite_same h]
      cases composite p _ (isWater os) nb nodata l' with
      | exit => exact .exit
      | ub => exact .ub
      | ok r => exact .ok ⟨rfl, by simp [l1]; omega, by simp [l2]; omega⟩

/-- C53: whatever pixels a thread processes, in whatever order and with whatever initial contents of its
arrays, each pixel gets the result it gets alone with cleared arrays. -/
theorem c53_schedule_partial (exp : ℝ → ℝ) (p : Par) (t0 : Target) (ts : List Target) (bands : Bool)
    (scale : ℝ) (nb : Nat) (nodata : Int) (nt : Nat) (fresh : List (Score × Int)) (hf : fresh.length = nt) :
    ∀ (l : List (List Obs)) (old : List (Score × Int)), old.length = nt →
    (∀ os ∈ l, os.length = nt ∧ ∀ o ∈ os, o.msk = true → ¬ corrupt (closest o.ce t0 ts)) →
    ∀ rs, run exp p t0 ts bands scale nb nodata l old = .ok rs →
    List.Forall₂ (fun os r => ∃ s, pixel exp p t0 ts bands scale nb nodata os fresh = .ok (r, s)) l rs
  | [], _, _, _, rs, h => by
    simp only [run, Out.ok.injEq] at h; subst h; exact .nil
  | os :: l, old, ho, hall, rs, h => by
    have h0 := hall os List.mem_cons_self
    have hi := c53_independent_partial exp p t0 ts bands scale nb nodata os old fresh (by omega) (by omega) h0.2
    simp only [run] at h
    generalize hx : pixel exp p t0 ts bands scale nb nodata os old = x at hi h
    generalize hy : pixel exp p t0 ts bands scale nb nodata os fresh = y at hi h
    cases hi with
    | exit => simp [Out.bind] at h
    | ub => simp [Out.bind] at h
    | @ok a b hab =>
      simp only [Out.bind] at h
      cases hr : run exp p t0 ts bands scale nb nodata l a.2 with
      | exit => rw [hr] at h; simp at h
      | ub => rw [hr] at h; simp at h
      | ok rs' =>
        rw [hr] at h
        simp only [Out.ok.injEq] at h
        subst h
        refine .cons ⟨b.2, by rw [hy, hab.1]⟩ ?_
        exact c53_schedule_partial exp p t0 ts bands scale nb nodata nt fresh hf l a.2 (by omega)
          (fun os ho => hall os (List.mem_cons_of_mem _ ho)) rs' hr

/-- C53, violated: if the target of a pixel is corrupt (the phenology of the pixel is not known), its
observation is used or not depending on the DOY score that the previous pixel of the thread had at the same
date. -/
theorem c53_stale_violated (exp : ℝ → ℝ) (p : Par) (t0 : Target) (ts : List Target)
    (scale : ℝ) (nb : Nat) (nodata : Int) (o : Obs) (old : Score) (td : Int) (a : ℝ)
    (hm : o.msk = true) (hw : o.water = false) (hc : corrupt (closest o.ce t0 ts))
    (hp : p.offsea = false ∧ p.useHazy = true ∧ p.useCloudy = true) (hs : Unit01 old) (hd : old.d = some a) :
    (a < 0.01 → ∃ s, pixel exp p t0 ts true scale nb nodata [o] [(old, td)] = .ok (nodataPixel nb nodata, s)) ∧
    (0.01 ≤ a → ∃ px s, pixel exp p t0 ts true scale nb nodata [o] [(old, td)] = .ok (px, s) ∧ px.bap = o.dat) := by
  set s : Score := { old with t := some (if p.add then 0 else 1) } with hsdef
  have h1 : scoreAll exp p t0 ts ([o].zip [(old, td)]) = .ok [(o, s, td)] := by
    simp only [List.zip_cons_cons, List.zip_nil_right, scoreAll, scoreObs, hm, Bool.not_true, Bool.false_eq_true,
      if_false, if_pos hc, Out.bind]
    rfl
  have hnw : ¬ isWater [o] := by simp [isWater, hm, hw]
  have hnc : ¬ ((true : Bool) = true ∧ isWater [o]) := fun h => hnw h.2
  have hsu : Unit01 s := by
    refine ⟨⟨_, rfl, ?_, ?_⟩, hs.d, hs.y, hs.c, hs.h, hs.r, hs.v⟩ <;> split <;> norm_num
  have hpx : pixel exp p t0 ts true scale nb nodata [o] [(old, td)] =
      (composite p (hazeStats p [(o, s, td)]) (isWater [o]) nb nodata [(o, s, td)]).bind fun r =>
        .ok (r, [(s, td)]) := by
    unfold pixel
    rw [h1]
    simp only [Out.bind, true_and, if_neg hnw, List.map_cons, List.map_nil]
  constructor
  · intro ha
    refine ⟨[(s, td)], ?_⟩
    rw [hpx, c45_nodata]
    · rfl
    · intro x hx hxa
      simp only [List.mem_cons, List.not_mem_nil, or_false] at hx
      subst hx
      rcases hxa.2.1 with h | h
      · rw [hp.1] at h; cases h
      · have := h a hd; linarith
  · intro ha
    have hadm : Admissible p (hazeStats p [(o, s, td)]) (o, s, td) := by
      refine ⟨hm, .inr ?_, .inl hp.2.1, .inl hp.2.2⟩
      intro d hd'
      have : some d = some a := by rw [← hd', ← hd]
      cases this; exact ha
    obtain ⟨u, hu, hu0, _⟩ := hsu.t
    obtain ⟨j, x, hb, hcc⟩ := c45_best p (hazeStats p [(o, s, td)]) (isWater [o]) nb nodata [(o, s, td)]
      ⟨(o, s, td), by simp, hadm, u, hu, by linarith⟩
    have hx : x = (o, s, td) := by
      have := List.mem_iff_getElem?.2 ⟨j, hb.1⟩
      simpa using this
    subst hx
    obtain ⟨sc, hsc, _, _⟩ := scrOut_ok hsu (isWater [o])
    rw [hcc, hsc] at hpx
    simp only [Out.bind] at hpx
    exact ⟨_, _, hpx, rfl⟩

/-- The target of `demoObs` is not corrupt; a target without date is. -/
example : (∀ o ∈ demoObs, o.msk = true → ¬ corrupt (closest o.ce demoTarget [])) ∧
    corrupt (closest 737460 ⟨0, 0, 0, 1, 1⟩ []) := by
  constructor
  · intro o _ _; simp [closest, corrupt, demoTarget]
  · simp [closest, corrupt]

/-! ## The DOY score (C54) -/

/-- C54: the target dates of a year are in order, less than a year apart, on the days of the year that the
user gave; the central one is in that year. -/
theorem c54_dates (p : Par) (y : Nat)
    (hdoy : (1 ≤ p.t0 ∧ p.t0 ≤ 365) ∧ (1 ≤ p.t1 ∧ p.t1 ≤ 365) ∧ (1 ≤ p.t2 ∧ p.t2 ≤ 365)) :
    let c := staticDates p y
    (c.1 ≤ c.2.1 ∧ c.2.1 - c.1 < 365) ∧ (c.2.1 ≤ c.2.2 ∧ c.2.2 - c.2.1 < 365) ∧
    c.2.1 = 365 * (p.yt - p.yr + y) + p.t1 ∧ (c.1 - p.t0) % 365 = 0 ∧ (c.2.2 - p.t2) % 365 = 0 := by
  simp only [staticDates, Date.doy2ce]
  split <;> split <;> omega

theorem sigma_tail {base d : ℝ} (hb : 0 < base) (hd : 0 < d) (hdb : d < base) {x : Int} (hx : x ≠ 0) :
    sigma x (d / base) ≠ 0 ∧ tail Real.exp base (x * x) (sigma x (d / base)) = some d := by
  have hq : 0 < d / base := div_pos hd hb
  have hq1 : d / base < 1 := (div_lt_one hb).2 hdb
  have hlog : Real.log (d / base) < 0 := Real.log_neg hq hq1
  have hpos : 0 < -2 * Real.log (d / base) := by linarith
  have hs : Real.sqrt (-2 * Real.log (d / base)) ≠ 0 := (Real.sqrt_pos.2 hpos).ne'
  have hxr : (x : ℝ) ≠ 0 := by exact_mod_cast hx
  have hsig : sigma x (d / base) = |(x : ℝ) / Real.sqrt (-2 * Real.log (d / base))| := by
    simp only [sigma, if_neg hq.ne']
  have hne : sigma x (d / base) ≠ 0 := by
    rw [hsig]; exact abs_ne_zero.2 (div_ne_zero hxr hs)
  refine ⟨hne, ?_⟩
  have hsq : sigma x (d / base) * sigma x (d / base) = (x : ℝ) * x / (-2 * Real.log (d / base)) := by
    rw [hsig, abs_mul_abs_self, div_mul_div_comm, Real.mul_self_sqrt hpos.le]
  have harg : ((x * x : Int) : ℝ) / (-2 * sigma x (d / base) * sigma x (d / base)) = Real.log (d / base) := by
    rw [mul_assoc, hsq]
    push_cast
    have hl : Real.log (d / base) ≠ 0 := hlog.ne
    field_simp
  simp only [tail, if_neg hne, harg, Real.exp_log hq]
  congr 1
  field_simp

theorem temporal_left {exp : ℝ → ℝ} {p : Par} {tg : Target} {o : Obs} (hg : GoodPar p) (hty : p.typ = .gauss)
    (ho : ((o.year - p.yt).natAbs : Int) ≤ p.yr) (hl : tg.ce0 ≤ tg.ce1 ∧ tg.ce1 - tg.ce0 ≤ 40000)
    (hc : o.ce < tg.ce1) :
    ∃ q, temporal exp p tg o = .ok (tail exp p.d1 ((o.ce - tg.ce1) * (o.ce - tg.ce1)) tg.a,
      tail exp p.d1 q tg.a, o.ce - tg.ce1) := by
  obtain ⟨s1, hs1, hs1a, hs1b⟩ := slice_ok hg (len := tg.ce1 - tg.ce0) (by linarith [hl.1]) hl.2
  have hq := sqDist_ok (Int.natCast_nonneg _) ho hs1a hs1b
  exact ⟨_, by unfold temporal; simp only [hty, if_pos hc, hs1, Out.bind, hq.1]; rfl⟩

theorem temporal_right {exp : ℝ → ℝ} {p : Par} {tg : Target} {o : Obs} (hg : GoodPar p) (hty : p.typ = .gauss)
    (ho : ((o.year - p.yt).natAbs : Int) ≤ p.yr) (hl : tg.ce1 ≤ tg.ce2 ∧ tg.ce2 - tg.ce1 ≤ 40000)
    (hc : ¬ o.ce < tg.ce1) :
    ∃ q, temporal exp p tg o = .ok (tail exp p.d1 ((o.ce - tg.ce1) * (o.ce - tg.ce1)) tg.b,
      tail exp p.d1 q tg.b, o.ce - tg.ce1) := by
  obtain ⟨s1, hs1, hs1a, hs1b⟩ := slice_ok hg (len := tg.ce2 - tg.ce1) (by linarith [hl.1]) hl.2
  have hq := sqDist_ok (Int.natCast_nonneg _) ho hs1a hs1b
  exact ⟨_, by unfold temporal; simp only [hty, if_neg hc, hs1, Out.bind, hq.1]; rfl⟩

/-- C54: with a bell-shaped scoring function, the DOY score on the three target days is what the user
requested. Missing: degenerate settings (see the violation). -/
theorem c54_values_partial (logistic : Int → Int → Par → ℝ × ℝ) {p : Par} (hg : GoodPar p) (hty : p.typ = .gauss)
    (h0 : 0 < p.d0 ∧ p.d0 < p.d1) (h2 : 0 < p.d2 ∧ p.d2 < p.d1) {c : Int × Int × Int}
    (hc1 : c.1 < c.2.1 ∧ c.2.1 - c.1 ≤ 40000) (hc2 : c.2.1 < c.2.2 ∧ c.2.2 - c.2.1 ≤ 40000)
    {o : Obs} (ho : ((o.year - p.yt).natAbs : Int) ≤ p.yr) :
    (o.ce = c.1 → ∃ y td, temporal Real.exp p (targetFunction logistic p c) o = .ok (some p.d0, y, td)) ∧
    (o.ce = c.2.1 → ∃ y td, temporal Real.exp p (targetFunction logistic p c) o = .ok (some p.d1, y, td)) ∧
    (o.ce = c.2.2 → ∃ y td, temporal Real.exp p (targetFunction logistic p c) o = .ok (some p.d2, y, td)) := by
  have hb : 0 < p.d1 := by linarith [h0.1]
  obtain ⟨na, ta⟩ := sigma_tail hb h0.1 h0.2 (x := c.1 - c.2.1) (by omega)
  obtain ⟨nb, tb⟩ := sigma_tail hb h2.1 h2.2 (x := c.2.2 - c.2.1) (by omega)
  have htg : targetFunction logistic p c =
      ⟨c.1, c.2.1, c.2.2, sigma (c.1 - c.2.1) (p.d0 / p.d1), sigma (c.2.2 - c.2.1) (p.d2 / p.d1)⟩ := by
    simp only [targetFunction, hty]
  rw [htg]
  refine ⟨?_, ?_, ?_⟩
  · intro he
    obtain ⟨q, h⟩ := temporal_left (exp := Real.exp) (tg := ⟨c.1, c.2.1, c.2.2, sigma (c.1 - c.2.1) (p.d0 / p.d1),
      sigma (c.2.2 - c.2.1) (p.d2 / p.d1)⟩) hg hty ho ⟨hc1.1.le, hc1.2⟩ (by rw [he]; exact hc1.1)
    simp only [he, ta] at h
    exact ⟨_, _, h⟩
  · intro he
    obtain ⟨q, h⟩ := temporal_right (exp := Real.exp) (tg := ⟨c.1, c.2.1, c.2.2, sigma (c.1 - c.2.1) (p.d0 / p.d1),
      sigma (c.2.2 - c.2.1) (p.d2 / p.d1)⟩) hg hty ho ⟨hc2.1.le, hc2.2⟩ (by rw [he]; exact lt_irrefl _)
    have : tail Real.exp p.d1 ((c.2.1 - c.2.1) * (c.2.1 - c.2.1)) (sigma (c.2.2 - c.2.1) (p.d2 / p.d1)) =
        some p.d1 := by
      simp [tail, nb]
    simp only [he, this] at h
    exact ⟨_, _, h⟩
  · intro he
    obtain ⟨q, h⟩ := temporal_right (exp := Real.exp) (tg := ⟨c.1, c.2.1, c.2.2, sigma (c.1 - c.2.1) (p.d0 / p.d1),
      sigma (c.2.2 - c.2.1) (p.d2 / p.d1)⟩) hg hty ho ⟨hc2.1.le, hc2.2⟩ (by rw [he]; exact not_lt.2 hc2.1.le)
    simp only [he, tb] at h
    exact ⟨_, _, h⟩

/-- C54: the closer to the central day, the higher the DOY score (on the same side of it). -/
theorem c54_monotone {p : Par} (hg : GoodPar p) (hty : p.typ = .gauss) {tg : Target} (ht : GoodTarget p tg)
    {o o' : Obs} (ho : ((o.year - p.yt).natAbs : Int) ≤ p.yr) (ho' : ((o'.year - p.yt).natAbs : Int) ≤ p.yr)
    (hside : (o.ce < tg.ce1 ∧ o'.ce ≤ o.ce) ∨ (tg.ce1 ≤ o.ce ∧ o.ce ≤ o'.ce)) :
    ∃ d d' y y' td td', temporal Real.exp p tg o = .ok (some d, y, td) ∧
      temporal Real.exp p tg o' = .ok (some d', y', td') ∧ d' ≤ d := by
  have hw := ht.wide hty
  have key : ∀ s : ℝ, s ≠ 0 → ∀ a b : Int, a ≤ b → 
      p.d1 * Real.exp ((b : ℝ) / (-2 * s * s)) ≤ p.d1 * Real.exp ((a : ℝ) / (-2 * s * s)) := by
    intro s hs a b hab
    apply mul_le_mul_of_nonneg_left _ hg.d1.1
    apply Real.exp_le_exp.2
    have hss : 0 < s * s := mul_self_pos.2 hs
    apply div_le_div_of_nonpos_of_le (by nlinarith)
    exact_mod_cast hab
  rcases hside with ⟨ha, hb⟩ | ⟨ha, hb⟩
  · obtain ⟨q, h⟩ := temporal_left (exp := Real.exp) hg hty ho ht.before ha
    obtain ⟨q', h'⟩ := temporal_left (exp := Real.exp) hg hty ho' ht.before (lt_of_le_of_lt hb ha)
    rw [tail, if_neg hw.1] at h h'
    exact ⟨_, _, _, _, _, _, h, h', key tg.a hw.1 ((o.ce - tg.ce1) * (o.ce - tg.ce1))
      ((o'.ce - tg.ce1) * (o'.ce - tg.ce1)) (by nlinarith)⟩
  · obtain ⟨q, h⟩ := temporal_right (exp := Real.exp) hg hty ho ht.after (not_lt.2 ha)
    obtain ⟨q', h'⟩ := temporal_right (exp := Real.exp) hg hty ho' ht.after (not_lt.2 (ha.trans hb))
    rw [tail, if_neg hw.2] at h h'
    exact ⟨_, _, _, _, _, _, h, h', key tg.b hw.2 ((o.ce - tg.ce1) * (o.ce - tg.ce1))
      ((o'.ce - tg.ce1) * (o'.ce - tg.ce1)) (by nlinarith)⟩

/-- C54, violated: if the last target day equals the central one (or its score is 0), the DOY score on the
central day is not a number instead of the requested value. -/
theorem c54_degenerate_violated (logistic : Int → Int → Par → ℝ × ℝ) {p : Par} (hg : GoodPar p) (hty : p.typ = .gauss)
    {c : Int × Int × Int} (hc2 : c.2.1 ≤ c.2.2 ∧ c.2.2 - c.2.1 ≤ 40000) (hdeg : c.2.2 = c.2.1 ∨ p.d2 = 0)
    {o : Obs} (ho : ((o.year - p.yt).natAbs : Int) ≤ p.yr) (hce : o.ce = c.2.1) :
    ∃ y td, temporal Real.exp p (targetFunction logistic p c) o = .ok (none, y, td) := by
  have hb : sigma (c.2.2 - c.2.1) (p.d2 / p.d1) = 0 := by
    unfold sigma
    split
    · rfl
    · rcases hdeg with h | h
      · simp [h]
      · rename_i hne; simp [h] at hne
  have htg : targetFunction logistic p c =
      ⟨c.1, c.2.1, c.2.2, sigma (c.1 - c.2.1) (p.d0 / p.d1), sigma (c.2.2 - c.2.1) (p.d2 / p.d1)⟩ := by
    simp only [targetFunction, hty]
  rw [htg]
  obtain ⟨q, h⟩ := temporal_right (exp := Real.exp) (tg := ⟨c.1, c.2.1, c.2.2, sigma (c.1 - c.2.1) (p.d0 / p.d1),
    sigma (c.2.2 - c.2.1) (p.d2 / p.d1)⟩) hg hty ho hc2 (by rw [hce]; exact lt_irrefl _)
  have : tail Real.exp p.d1 ((o.ce - c.2.1) * (o.ce - c.2.1)) (sigma (c.2.2 - c.2.1) (p.d2 / p.d1)) = none := by
    simp [tail, hb, hce]
  simp only [this] at h
  exact ⟨_, _, h⟩

example : demoPar.typ = .gauss ∧ (0 < demoPar.d0 ∧ demoPar.d0 < demoPar.d1) ∧
    (staticDates demoPar 0) = (737400, 737470, 737540) := by
  refine ⟨rfl, by norm_num [demoPar], by simp [staticDates, demoPar, Date.doy2ce]⟩

/-! ## Weighting (C55) -/

/-- The admissible observations. -/
noncomputable def adm (p : Par) (hz : Prop) (l : List (Obs × Score × Int)) : List (Obs × Score × Int) :=
  l.filter fun x => decide (Admissible p hz x)

theorem weigh_spec (p : Par) (hz : Prop) (nb : Nat) (w : Obs × Score × Int → ℝ) :
    ∀ (l : List (Obs × Score × Int)) (n : Nat) (tot : ℝ) (S : Nat → ℝ),
    (∀ x ∈ l, Admissible p hz x → x.2.1.t = some (w x) ∧ x.1.dat.length = nb) →
    weigh p hz l (n, some (tot, (List.range nb).map S)) =
      (n + (adm p hz l).length, some (tot + ((adm p hz l).map w).sum,
        (List.range nb).map fun b => S b + ((adm p hz l).map fun x => ((x.1.dat[b]?.getD 0 : Int) : ℝ) * w x).sum))
  | [], n, tot, S, _ => by simp [weigh, adm]
  | x :: l, n, tot, S, h => by
    have hl : ∀ y ∈ l, Admissible p hz y → y.2.1.t = some (w y) ∧ y.1.dat.length = nb :=
      fun y hy => h y (List.mem_cons_of_mem _ hy)
    by_cases ha : Admissible p hz x
    · obtain ⟨h1, h2⟩ := h x List.mem_cons_self ha
      have hk := (skipped_iff p hz x).2 ha
      have hadm : adm p hz (x :: l) = x :: adm p hz l := by
        unfold adm; rw [List.filter_cons_of_pos (by simpa using ha)]
      have hz' : ((List.range nb).map S).zipWith (fun a (b : Int) => a + (b : ℝ) * w x) x.1.dat =
          (List.range nb).map fun b => S b + ((x.1.dat[b]?.getD 0 : Int) : ℝ) * w x := by
        apply List.ext_getElem
        · simp [h2]
        · intro i hi1 hi2
          have hi : i < x.1.dat.length := by simp at hi2; omega
          simp [hi]
      have := weigh_spec p hz nb w l (n + 1) (tot + w x)
        (fun b => S b + ((x.1.dat[b]?.getD 0 : Int) : ℝ) * w x) hl
      simp only [weigh, hk, Bool.false_eq_true, if_false, h1, Option.bind_some, Option.map_some, hz', this, hadm,
        List.length_cons, List.map_cons, List.sum_cons]
      refine Prod.ext (by simp; omega) ?_
      simp only [Option.some.injEq, Prod.mk.injEq]
      exact ⟨by ring, by congr 1; funext b; ring⟩
    · have hk := (skipped_true p hz x).2 ha
      have hadm : adm p hz (x :: l) = adm p hz l := by
        unfold adm; rw [List.filter_cons_of_neg (by simpa using ha)]
      simp only [weigh, hk, if_true, hadm]
      exact weigh_spec p hz nb w l n tot S hl

theorem truncR_between {x : ℝ} {m M : Int} (h1 : (m : ℝ) ≤ x) (h2 : x ≤ M) : m ≤ truncR x ∧ truncR x ≤ M := by
  unfold truncR
  split
  · exact ⟨Int.le_floor.2 h1, by
      have : ((⌊x⌋ : Int) : ℝ) ≤ M := (Int.floor_le x).trans h2
      exact_mod_cast this⟩
  · exact ⟨by
      have : (m : ℝ) ≤ (⌈x⌉ : Int) := h1.trans (Int.le_ceil x)
      exact_mod_cast this, Int.ceil_le.2 h2⟩

theorem shorts_ok : ∀ l : List ℝ, (∀ x ∈ l, -32768 ≤ truncR x ∧ truncR x ≤ 32767) → shorts l = .ok (l.map truncR)
  | [], _ => rfl
  | x :: l, h => by
    have h1 : shortOf (some x) = .ok (truncR x) := if_pos (h x List.mem_cons_self)
    simp only [shorts, h1, shorts_ok l fun y hy => h y (List.mem_cons_of_mem _ hy), Out.bind, List.map_cons]

theorem wsum_between {A : Type} (w : A → ℝ) (v : A → ℝ) (m M : ℝ) : ∀ l : List A,
    (∀ x ∈ l, 0 ≤ w x) → (∀ x ∈ l, m ≤ v x ∧ v x ≤ M) →
    m * (l.map w).sum ≤ (l.map fun x => v x * w x).sum ∧ (l.map fun x => v x * w x).sum ≤ M * (l.map w).sum
  | [], _, _ => by simp
  | x :: l, hw, hv => by
    obtain ⟨h1, h2⟩ := wsum_between w v m M l (fun y hy => hw y (List.mem_cons_of_mem _ hy))
      (fun y hy => hv y (List.mem_cons_of_mem _ hy))
    have a := hw x List.mem_cons_self
    have b := hv x List.mem_cons_self
    simp only [List.map_cons, List.sum_cons]
    constructor <;> nlinarith [mul_le_mul_of_nonneg_right b.1 a, mul_le_mul_of_nonneg_right b.2 a]

/-- C55: if the scores of the admissible observations are not negative, and one is positive, each band of the
composite is the weighted mean (truncated) of the admissible observations, with the total scores as weights. It
lies between any two bounds of the values in that band. Missing: the reflectance product must be requested. -/
theorem c55_mean_partial (p : Par) (hz : Prop) (nb : Nat) (nodata : Int) (l : List (Obs × Score × Int))
    (w : Obs × Score × Int → ℝ)
    (hx : ∀ x ∈ l, Admissible p hz x → x.2.1.t = some (w x) ∧ 0 ≤ w x ∧ x.1.dat.length = nb ∧
      ∀ v ∈ x.1.dat, -32768 ≤ v ∧ v ≤ 32767)
    (hp : ∃ x ∈ l, Admissible p hz x ∧ 0 < w x) :
    ∃ r, weighting p hz nb nodata true l = .ok r ∧ r.length = nb ∧ ∀ b < nb,
      r[b]? = some (truncR (((adm p hz l).map fun x => ((x.1.dat[b]?.getD 0 : Int) : ℝ) * w x).sum /
        ((adm p hz l).map w).sum)) ∧
      ∀ m M : Int, (∀ x ∈ l, Admissible p hz x → ∀ v, x.1.dat[b]? = some v → m ≤ v ∧ v ≤ M) →
        ∀ v, r[b]? = some v → m ≤ v ∧ v ≤ M := by
  have hadm : ∀ x, x ∈ adm p hz l ↔ x ∈ l ∧ Admissible p hz x := by
    intro x; simp [adm]
  have hs := weigh_spec p hz nb w l 0 0 (fun _ => 0) fun x h1 h2 => ⟨(hx x h1 h2).1, (hx x h1 h2).2.2.1⟩
  have hrep : (List.range nb).map (fun _ => (0 : ℝ)) = List.replicate nb 0 := by
    simp
  rw [hrep] at hs
  simp only [zero_add] at hs
  set tot := ((adm p hz l).map w).sum with htot
  have hnn : ∀ x ∈ adm p hz l, 0 ≤ w x := fun x h => (hx x ((hadm x).1 h).1 ((hadm x).1 h).2).2.1
  have hpos : 0 < tot := by
    obtain ⟨x, h1, h2, h3⟩ := hp
    have hmem : w x ∈ (adm p hz l).map w := List.mem_map_of_mem ((hadm x).2 ⟨h1, h2⟩)
    have hle : w x ≤ tot := List.single_le_sum (by
      intro y hy
      obtain ⟨z, hz', rfl⟩ := List.mem_map.1 hy
      exact hnn z hz') _ hmem
    linarith
  have hb : ∀ b < nb, ∀ m M : Int, (∀ x ∈ l, Admissible p hz x → ∀ v, x.1.dat[b]? = some v → m ≤ v ∧ v ≤ M) →
      (m : ℝ) ≤ ((adm p hz l).map fun x => ((x.1.dat[b]?.getD 0 : Int) : ℝ) * w x).sum / tot ∧
      ((adm p hz l).map fun x => ((x.1.dat[b]?.getD 0 : Int) : ℝ) * w x).sum / tot ≤ M := by
    intro b hbn m M hmM
    obtain ⟨h1, h2⟩ := wsum_between w (fun x => ((x.1.dat[b]?.getD 0 : Int) : ℝ)) m M (adm p hz l) hnn (by
      intro x hxm
      obtain ⟨q1, q2⟩ := (hadm x).1 hxm
      have hlen := (hx x q1 q2).2.2.1
      have hbl : b < x.1.dat.length := by omega
      have := hmM x q1 q2 x.1.dat[b] (List.getElem?_eq_getElem hbl)
      rw [List.getElem?_eq_getElem hbl]
      simp only [Option.getD_some]
      exact ⟨by exact_mod_cast this.1, by exact_mod_cast this.2⟩)
    exact ⟨by rw [le_div_iff₀ hpos]; exact h1, by rw [div_le_iff₀ hpos]; exact h2⟩
  refine ⟨(List.range nb).map fun b => truncR (((adm p hz l).map fun x =>
    ((x.1.dat[b]?.getD 0 : Int) : ℝ) * w x).sum / tot), ?_, by simp, ?_⟩
  · unfold weighting
    simp only [Bool.not_true, Bool.false_eq_true, if_false, hs, gt_iff_lt, if_pos hpos, List.map_map]
    rw [shorts_ok]
    · rw [List.map_map]; rfl
    · intro y hy
      obtain ⟨b, hbm, rfl⟩ := List.mem_map.1 hy
      have hbn : b < nb := by simpa using hbm
      have := hb b hbn (-32768) 32767 (by
        intro x q1 q2 v hv
        exact (hx x q1 q2).2.2.2 v (List.mem_of_getElem? hv))
      exact truncR_between (m := -32768) (M := 32767) this.1 this.2
  · intro b hbn
    have hget : ((List.range nb).map fun b => truncR (((adm p hz l).map fun x =>
        ((x.1.dat[b]?.getD 0 : Int) : ℝ) * w x).sum / tot))[b]? = some (truncR (((adm p hz l).map fun x =>
        ((x.1.dat[b]?.getD 0 : Int) : ℝ) * w x).sum / tot)) := by
      simp [hbn]
    refine ⟨hget, ?_⟩
    intro m M hmM v hv
    rw [hget] at hv
    cases hv
    have := hb b hbn m M hmM
    exact truncR_between this.1 this.2

/-- C55: without admissible observation, or if all weights are zero, the result is nodata. -/
theorem c55_nodata_partial (p : Par) (hz : Prop) (nb : Nat) (nodata : Int) (l : List (Obs × Score × Int))
    (hx : ∀ x ∈ l, Admissible p hz x → x.2.1.t = some 0 ∧ x.1.dat.length = nb) :
    weighting p hz nb nodata true l = .ok (List.replicate nb nodata) := by
  have hs := weigh_spec p hz nb (fun _ => 0) l 0 0 (fun _ => 0) hx
  have hrep : (List.range nb).map (fun _ => (0 : ℝ)) = List.replicate nb 0 := by simp
  rw [hrep] at hs
  simp [weighting, hs]

/-- C55, violated: if the reflectance product is not requested (e.g. only the scores are), the program writes
to a null pointer. -/
theorem c55_null_violated (p : Par) (hz : Prop) (nb : Nat) (nodata : Int) (l : List (Obs × Score × Int))
    (hn : 0 < nb) : weighting p hz nb nodata false l = .ub := by
  simp [weighting, hn.ne']

/-- Two admissible observations with the weights 1/2 and 1/4. -/
example : ∃ (l : List (Obs × Score × Int)) (w : Obs × Score × Int → ℝ),
    (∀ x ∈ l, Admissible demoPar True x → x.2.1.t = some (w x) ∧ 0 ≤ w x ∧ x.1.dat.length = 2 ∧
      ∀ v ∈ x.1.dat, -32768 ≤ v ∧ v ≤ 32767) ∧ (∃ x ∈ l, Admissible demoPar True x ∧ 0 < w x) ∧ l.length = 2 := by
  refine ⟨(demoWater 100 200).map fun o => (o, ⟨some (if o.sw2 = 100 then 1 / 2 else 1 / 4), some 1, some 1, some 1,
    some 1, some 1, some 1⟩, 0), fun x => x.2.1.t.getD 0, ?_, ?_, rfl⟩
  · intro x hx _
    simp only [demoWater, List.map_cons, List.map_nil, List.mem_cons, List.not_mem_nil, or_false] at hx
    rcases hx with rfl | rfl <;> norm_num
  · refine ⟨_, List.mem_cons_self, ⟨rfl, .inl rfl, .inl rfl, .inl rfl⟩, ?_⟩
    norm_num

/-! ## Correlation (C56) -/

theorem le_of_sq_le_sq_aux {a b : ℝ} (hb : 0 ≤ b) (h : a ^ 2 ≤ b ^ 2) : a ≤ b :=
  (le_abs_self a).trans (abs_le_of_sq_le_sq h hb)

theorem cauchy : ∀ (x y : List ℝ), x.length = y.length →
    (x.zipWith (· * ·) y).sum ^ 2 ≤ (x.map fun a => a * a).sum * (y.map fun a => a * a).sum ∧
    0 ≤ (x.map fun a => a * a).sum ∧ 0 ≤ (y.map fun a => a * a).sum
  | [], [], _ => by simp
  | a :: x, b :: y, h => by
    obtain ⟨h1, h2, h3⟩ := cauchy x y (by simpa using h)
    simp only [List.zipWith_cons_cons, List.map_cons, List.sum_cons]
    generalize (x.zipWith (· * ·) y).sum = S at *
    generalize (x.map fun a => a * a).sum = A at *
    generalize (y.map fun a => a * a).sum = B at *
    refine ⟨?_, by nlinarith [mul_self_nonneg a], by nlinarith [mul_self_nonneg b]⟩
    have hk : 2 * (a * b) * S ≤ a * a * B + A * (b * b) := by
      apply le_of_sq_le_sq_aux
      · nlinarith [mul_self_nonneg a, mul_self_nonneg b, mul_nonneg (mul_self_nonneg a) h3,
          mul_nonneg h2 (mul_self_nonneg b)]
      · have e1 : (2 * (a * b) * S) ^ 2 = 4 * (a * b) ^ 2 * S ^ 2 := by ring
        have e2 : 4 * (a * b) ^ 2 * S ^ 2 ≤ 4 * (a * b) ^ 2 * (A * B) :=
          mul_le_mul_of_nonneg_left h1 (by positivity)
        have e3 : 4 * (a * b) ^ 2 * (A * B) ≤ (a * a * B + A * (b * b)) ^ 2 := by
          nlinarith [sq_nonneg (a * a * B - A * (b * b))]
        rw [e1]; exact e2.trans e3
    nlinarith

/-- C56: the correlation of two observations is between -1 and 1. -/
theorem c56_range (x y : List Int) (h : x.length = y.length) (r : ℝ) (hr : corr x y = some r) : |r| ≤ 1 := by
  unfold corr at hr
  simp only at hr
  split at hr
  · cases hr
  · rename_i hne
    simp only [Option.some.injEq] at hr
    set xm := (x.map fun v : Int => (v : ℝ)).sum / x.length
    set ym := (y.map fun v : Int => (v : ℝ)).sum / y.length
    have hc := cauchy (x.map fun a : Int => (a : ℝ) - xm) (y.map fun b : Int => (b : ℝ) - ym) (by simp [h])
    rw [List.zipWith_map, List.map_map, List.map_map] at hc
    have h1 := hc.1
    simp only [Function.comp_def] at h1
    rw [← hr, abs_div, abs_of_nonneg (Real.sqrt_nonneg _), div_le_one (lt_of_le_of_ne (Real.sqrt_nonneg _) (Ne.symm hne))]
    exact Real.abs_le_sqrt h1

/-- C56: the order of the two observations does not matter. -/
theorem c56_symmetric (x y : List Int) : corr x y = corr y x := by
  unfold corr
  simp only
  set xm := (x.map fun v : Int => (v : ℝ)).sum / x.length
  set ym := (y.map fun v : Int => (v : ℝ)).sum / y.length
  have e : x.zipWith (fun (a b : Int) => ((a : ℝ) - xm) * (b - ym)) y = y.zipWith (fun (a b : Int) => ((a : ℝ) - ym) * (b - xm)) x := by
    rw [List.zipWith_comm]
    congr 1; funext a b; ring
  rw [e, mul_comm (List.sum (x.map _))]

theorem corrLoop_spec (t : Nat) : ∀ (row : List (Option ℝ)) (u : Nat) (xm : ℝ) (ym : Nat) (cur : ℝ) (vs : List ℝ),
    vs = (row.zipIdx u).filterMap (fun c => if c.2 = t then none else c.1) →
    corrLoop t row u (xm, ym, cur) = (xm + (vs.map fun x => |x|).sum, ym + vs.length,
      if vs = [] then cur else (xm + (vs.map fun x => |x|).sum) / ((ym + vs.length : Nat) : ℝ))
  | [], u, xm, ym, cur, vs, h => by simp at h; subst h; simp [corrLoop]
  | c :: row, u, xm, ym, cur, vs, h => by
    rw [List.zipIdx_cons, List.filterMap_cons] at h
    by_cases ht : u = t
    · simp only [ht, if_true] at h
      rw [show corrLoop t (c :: row) u (xm, ym, cur) = corrLoop t row (u + 1) (xm, ym, cur) from by
        cases c <;> simp [corrLoop, ht]]
      have := corrLoop_spec t row (u + 1) xm ym cur vs (by rw [h, ht])
      rw [this]
    · simp only [ht, if_false] at h
      cases c with
      | none =>
        rw [corrLoop, if_neg (fun h => ht h.symm)]
        exact corrLoop_spec t row (u + 1) xm ym cur vs h
      | some x =>
        rw [corrLoop, if_neg (fun h => ht h.symm)]
        simp only at h ⊢
        rw [corrLoop_spec t row (u + 1) _ _ _ _ rfl]
        rw [h]
        set ws := (row.zipIdx (u + 1)).filterMap (fun c => if c.2 = t then none else c.1)
        simp only [List.map_cons, List.sum_cons, List.length_cons, reduceCtorEq, if_false]
        refine Prod.ext (by simp; ring) (Prod.ext (by simp; omega) ?_)
        simp only
        split
        · rename_i hw; rw [hw]; simp
        · congr 1
          · ring
          · congr 1; omega

/-- C56: an observation that can be compared with others gets the mean of the absolute correlations with them;
it is between 0 and 1. An observation is not compared with itself. -/
theorem c56_mean (t : Nat) (row : List (Option ℝ)) (vs : List ℝ)
    (hvs : vs = row.zipIdx.filterMap (fun c => if c.2 = t then none else c.1)) (hne : vs ≠ []) :
    corrMean t row = (vs.map fun x => |x|).sum / vs.length ∧
    ((∀ x ∈ vs, |x| ≤ 1) → 0 ≤ corrMean t row ∧ corrMean t row ≤ 1) := by
  have h1 : corrMean t row = (vs.map fun x => |x|).sum / vs.length := by
    unfold corrMean
    rw [corrLoop_spec t row 0 _ _ _ vs hvs]
    simp [hne]
  refine ⟨h1, ?_⟩
  intro hx
  rw [h1]
  have hpos : (0 : ℝ) < vs.length := by
    exact_mod_cast List.length_pos_iff.2 hne
  have h0 : 0 ≤ (vs.map fun x => |x|).sum := List.sum_nonneg (by
    intro y hy; obtain ⟨z, _, rfl⟩ := List.mem_map.1 hy; exact abs_nonneg z)
  have h2 : (vs.map fun x => |x|).sum ≤ (vs.length : ℝ) := by
    clear hvs hne h1 hpos h0
    induction vs with
    | nil => simp
    | cons a l ih =>
      have := ih fun x h => hx x (List.mem_cons_of_mem _ h)
      have := hx a List.mem_cons_self
      simp only [List.map_cons, List.sum_cons, List.length_cons]; push_cast; linarith
  exact ⟨by positivity, by rw [div_le_one hpos]; exact h2⟩

theorem corrRow_bound (obs : List (Bool × List Int)) (nb : Nat) (hl : ∀ o ∈ obs, o.2.length = nb)
    (t : Nat) (ht : t < obs.length) : ∀ x, some x ∈ corrRow obs t → |x| ≤ 1 := by
  intro x hx
  unfold corrRow at hx
  obtain ⟨o, ho, hc⟩ := List.mem_map.1 hx
  split at hc
  · rw [List.getElem?_eq_getElem ht] at hc
    simp only [Option.getD_some] at hc
    exact c56_range _ _ (by rw [hl _ (List.getElem_mem ht), hl o ho]) x hc
  · cases hc

/-- C56: for a pixel with any number of observations: an observation that correlates with another valid one gets
a value between 0 and 1. -/
theorem c56_pixel (obs : List (Bool × List Int)) (nb : Nat) (hl : ∀ o ∈ obs, o.2.length = nb)
    (t u : Nat) (a b : List Int) (r : ℝ) (ht : obs[t]? = some (true, a)) (hu : obs[u]? = some (true, b)) (hne : u ≠ t)
    (hr : corr a b = some r) : 0 ≤ corrMean t (corrRow obs t) ∧ corrMean t (corrRow obs t) ≤ 1 := by
  obtain ⟨htl, hte⟩ := List.getElem?_eq_some_iff.1 ht
  have hmem : (some r, u) ∈ (corrRow obs t).zipIdx := by
    rw [List.mem_zipIdx_iff_getElem?]
    simp [corrRow, hu, ht, hr]
  refine (c56_mean t _ _ rfl ?_).2 ?_
  · intro h
    have : r ∈ (corrRow obs t).zipIdx.filterMap (fun c => if c.2 = t then none else c.1) :=
      List.mem_filterMap.2 ⟨(some r, u), hmem, by simp [hne]⟩
    rw [h] at this
    simp at this
  · intro x hx
    obtain ⟨c, hc, hcx⟩ := List.mem_filterMap.1 hx
    split at hcx
    · cases hcx
    · refine corrRow_bound obs nb hl t htl x ?_
      rw [← hcx]
      exact (List.mem_zipIdx' hc).2 ▸ List.getElem_mem _

/-- Three observations; the second pair cannot be compared. -/
example : corrMean 1 [some (-1 / 2), none, some 1] = 3 / 4 := by
  have := (c56_mean 1 [some (-1 / 2 : ℝ), none, some 1] [-1 / 2, 1] (by simp [List.zipIdx]) (by simp)).1
  rw [this]
  norm_num [abs_of_nonneg, abs_of_neg]

example : corr [1, 2, 3] [10, 20, 30] ≠ none := by
  unfold corr
  norm_num
  simp

/-! ## Parameters (C57) -/

/-- C57: weights within the range of the parameter file are accepted if one of them is positive, then they are
usable for scoring, and the composite has an odd number of years centred on the target year. Otherwise they
are refused. -/
theorem c57_weights (p : Par) (hd : 0 ≤ p.w.d ∧ p.w.d ≤ 1) (hy : 0 ≤ p.w.y ∧ p.w.y ≤ 1)
    (hc : 0 ≤ p.w.c ∧ p.w.c ≤ 1) (hh : 0 ≤ p.w.h ∧ p.w.h ≤ 1) (hr : 0 ≤ p.w.r ∧ p.w.r ≤ 1)
    (hv : 0 ≤ p.w.v ∧ p.w.v ≤ 1) (hyr : 0 ≤ p.yr) :
    (p.w.d + p.w.y + p.w.c + p.w.h + p.w.r + p.w.v = 0 → parse p = .exit) ∧
    (0 < p.w.d + p.w.y + p.w.c + p.w.h + p.w.r + p.w.v → ∃ q, parse p = .ok q ∧ GoodWeights q ∧
      (q.yn : Int) = 2 * p.yr + 1) := by
  constructor
  · intro h
    unfold parse
    rw [if_pos ⟨by linarith, by linarith, by linarith, by linarith, by linarith, by linarith⟩]
  · intro h
    unfold parse
    rw [if_neg (by rintro ⟨h1, h2, h3, h4, h5, h6⟩; rw [h1, h2, h3, h4, h5, h6] at h; norm_num at h)]
    have e : ∀ x : ℝ, 0 ≤ x → (if x > 0 then x else 0) = x := by
      intro x hx
      split
      · rfl
      · linarith
    refine ⟨_, rfl, ?_, by simp only; omega⟩
    by_cases ha : p.add = true
    · refine ⟨?_, ?_, ?_, ?_, ?_, ?_, ?_, ?_⟩ <;> simp only [ha, if_true, totalWeight, e _ hd.1, e _ hy.1, e _ hc.1,
        e _ hh.1, e _ hr.1, e _ hv.1] <;> first | assumption | simp
    · refine ⟨?_, ?_, ?_, ?_, ?_, ?_, ?_, ?_⟩ <;> simp only [ha, if_false, Bool.false_eq_true] <;> first | assumption | simp

/-- C57: the scoring function has the shape of the three scores: a peak gives a Gaussian, otherwise a higher score
on the first day gives a descending sigmoid, on the last day an ascending one. Missing: equal outer scores
without a peak. -/
theorem c57_shape_partial (p q : Par) (h : parse p = .ok q) :
    (p.d0 < p.d1 ∧ p.d2 < p.d1 → q.typ = .gauss) ∧
    (¬ (p.d0 < p.d1 ∧ p.d2 < p.d1) → p.d2 < p.d0 → q.typ = .des) ∧
    (¬ (p.d0 < p.d1 ∧ p.d2 < p.d1) → p.d0 < p.d2 → q.typ = .asc) := by
  unfold parse at h
  by_cases h0 : p.w.d = 0 ∧ p.w.y = 0 ∧ p.w.c = 0 ∧ p.w.h = 0 ∧ p.w.r = 0 ∧ p.w.v = 0
  · rw [if_pos h0] at h; cases h
  · rw [if_neg h0] at h
    cases h
    refine ⟨?_, ?_, ?_⟩
    · intro h1
      exact if_pos h1
    · intro h1 h2
      show (if _ then _ else _) = _
      rw [if_neg h1, if_pos h2]
    · intro h1 h2
      show (if _ then _ else _) = _
      rw [if_neg h1, if_neg (by show ¬ p.d2 < p.d0; linarith), if_pos h2]

/-- C57, violated: if the first and the last score are equal and the middle one is not higher, the parameters
are accepted, but the scoring function is whatever was in the memory before. -/
theorem c57_shape_violated (p : Par) (h1 : p.d0 = p.d2) (h2 : p.d1 ≤ p.d0) (hw : 0 < p.w.d) :
    ∃ q, parse p = .ok q ∧ q.typ = p.typ := by
  unfold parse
  rw [if_neg (by rintro ⟨h, _⟩; linarith)]
  refine ⟨_, rfl, ?_⟩
  show (if _ then _ else _) = _
  rw [if_neg (by rintro ⟨h, _⟩; have : p.d0 < p.d1 := h; linarith), if_neg (by rw [h1]; exact lt_irrefl _),
    if_neg (by rw [h1]; exact lt_irrefl _)]

example : ∃ q, parse demoPar = .ok q ∧ GoodWeights q := by
  obtain ⟨q, h1, h2, _⟩ := (c57_weights demoPar (by norm_num [demoPar]) (by norm_num [demoPar]) (by norm_num [demoPar])
    (by norm_num [demoPar]) (by norm_num [demoPar]) (by norm_num [demoPar]) (by norm_num [demoPar])).2 (by norm_num [demoPar])
  exact ⟨q, h1, h2⟩

end

end Verif.Bap
