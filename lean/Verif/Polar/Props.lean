import Verif.Polar.Day
import Verif.Polar.Events

/-!
# Properties of the polarmetrics
-/

namespace Verif.Polar

open Spec Verif.Date Verif.Float

/-! ## C63: values of the steps -/

theorem polarSeries_some {f d : ℚ → ℚ} {nodata yearMin k θ : Int} {l : List Step} {pts : List Pt}
    (h : polarSeries f d nodata yearMin k θ l = some pts) : (fillLoop nodata [] l).2 = true ∧
    pts = regular θ k (-1) 0 (List.zipWith (polarCoords f d yearMin) l (fillLoop nodata [] l).1) := by
  unfold polarSeries at h
  simp only at h
  split at h
  · next h1 => exact ⟨h1, (Option.some.inj h).symm⟩
  · cases h

theorem getElem?_split {α : Type} {l : List α} {i : Nat} {x : α} (h : l[i]? = some x) :
    ∃ a b, l = a ++ x :: b ∧ a.length = i := by
  obtain ⟨hi, hx⟩ := List.getElem?_eq_some_iff.1 h
  refine ⟨l.take i, l.drop (i + 1), ?_, by simp; omega⟩
  rw [← hx, List.cons_getElem_drop_succ, List.take_append_drop]

/-- C63: every step of a pixel with at least one valid value gets its observed value, the linear interpolation between
the nearest valid steps, or the value of the nearest valid step at the ends; negative values become 0. -/
theorem c63_values (f d : ℚ → ℚ) (nodata yearMin k θ : Int) (l : List Step)
    (hce : ∀ x ∈ l, 0 < x.ce) (hs : l.Pairwise fun a b => a.ce < b.ce) (hv : ∃ x ∈ l, x.v ≠ nodata) :
    ∃ pts, polarSeries f d nodata yearMin k θ l = some pts ∧ pts.length = l.length ∧
      ∀ pre x post p, l = pre ++ x :: post → pts[pre.length]? = some p → Filled nodata pre x post p.val := by
  have hv' : ¬ ∀ q ∈ ([] : List Step) ++ l, q.v = nodata := by
    obtain ⟨x, hx, hn⟩ := hv
    intro h; exact hn (h x (by simpa using hx))
  have h1 : (fillLoop nodata [] l).2 = true := by
    have := (fillLoop_valid (nodata := nodata) l [] (by simpa using hce) (by simpa using hs)).2 (Or.inr hv')
    simpa using this
  have hp : polarSeries f d nodata yearMin k θ l =
      some (regular θ k (-1) 0 (List.zipWith (polarCoords f d yearMin) l (fillLoop nodata [] l).1)) := by
    unfold polarSeries
    simp [h1]
  refine ⟨_, hp, ?_, ?_⟩
  · rw [regular_length, List.length_zipWith, fillLoop_length, Nat.min_self]
  · intro pre x post p hl hg
    have h2 := congrArg (fun z => z[pre.length]?) (regular_map θ k (-1) 0
      (List.zipWith (polarCoords f d yearMin) l (fillLoop nodata [] l).1))
    simp only [List.getElem?_map, hg, Option.map_some] at h2
    have hx : l[pre.length]? = some x := by rw [hl]; simp
    have hlen : pre.length < (fillLoop nodata [] l).1.length := by
      rw [fillLoop_length, hl]; simp
    obtain ⟨v, hv2⟩ : ∃ v, (fillLoop nodata [] l).1[pre.length]? = some v := ⟨_, List.getElem?_eq_getElem hlen⟩
    rw [List.getElem?_zipWith, hx, hv2] at h2
    simp only [Option.map_some, Option.some.injEq, Prod.mk.injEq] at h2
    rw [h2.1]
    have := fillLoop_get (nodata := nodata) l [] (by simpa using hce) (by simpa using hs) hv' pre x post v hl
      (by simpa using hv2)
    exact (by simpa using this : Filled nodata pre x post v)

/-- C63: a pixel without valid values is nodata in all years. -/
theorem c63_nodata (f d : ℚ → ℚ) (nodata yearMin k θ : Int) (th : Th) (ny : Nat) (l : List Step) (hl : l ≠ [])
    (hce : ∀ x ∈ l, 0 < x.ce) (hs : l.Pairwise fun a b => a.ce < b.ce) (hv : ∀ x ∈ l, x.v = nodata) :
    polarPixel f d nodata yearMin k θ th ny l = none := by
  have h1 := fillLoop_valid (nodata := nodata) l [] (by simpa using hce) (by simpa using hs)
  have h2 : ¬ (fillLoop nodata [] l).2 = true := by
    intro h
    rcases h1.1 (by simpa using h) with h | h
    · exact hl h
    · exact h (by simpa using hv)
  simp [polarPixel, polarSeries, h2]

example : (fillLoop (-9999) [] [⟨10, 10, 0, -9999⟩, ⟨20, 20, 0, 100⟩, ⟨30, 30, 0, -9999⟩, ⟨50, 50, 0, 400⟩,
    ⟨60, 60, 0, -5⟩]).1 = [100, 100, 200, 400, 0] := by decide +kernel

/-! ## C64: dates of the steps -/

theorem setCe_facts (ce : Int) : (setCe initDate ce).ce = ce ∧ 1 ≤ (setCe initDate ce).doy ∧
    (setCe initDate ce).doy ≤ 365 ∧ (setCe initDate ce).year * 365 + (setCe initDate ce).doy = ce := by
  obtain ⟨hv, he⟩ := ce2date_valid ce
  have s := c01_md_roundtrip _ _ hv
  have e := md2doy_eq (d := (ce2date ce).2.2) hv.1 hv.2.1
  simp only [setCe, setDate, setMonthDay, setYear, doy2ce]
  omega

/-- Date of a step, with the days that are lost. -/
theorem series_ce {f d : ℚ → ℚ} (hf : ∀ x, Nearest 24 x (f x)) (hd : ∀ x, Nearest 53 x (d x))
    {nodata yearMin k θ ce0 : Int} {n : Nat} {vs : List Int} (hn : vs.length = n) {pts : List Pt}
    (h : polarSeries f d nodata yearMin k θ (mkSteps (tsiDates ce0 k n) vs) = some pts) :
    pts.length = n ∧ ∀ (i : Nat) p, pts[i]? = some p →
      p.ce = ce0 + i * k - 365 * yearMin - if (ce0 + i * k - 1) % 365 + 1 ∈ lostDays then 1 else 0 := by
  obtain ⟨-, rfl⟩ := polarSeries_some h
  have hl : (mkSteps (tsiDates ce0 k n) vs).length = n := by simp [mkSteps, tsiDates, hn]
  refine ⟨by rw [regular_length, List.length_zipWith, fillLoop_length, Nat.min_self, hl], ?_⟩
  intro i p hp
  have h2 := congrArg (fun z => z[i]?) (regular_map θ k (-1) 0
    (List.zipWith (polarCoords f d yearMin) (mkSteps (tsiDates ce0 k n) vs)
      (fillLoop nodata [] (mkSteps (tsiDates ce0 k n) vs)).1))
  simp only [List.getElem?_map, hp, Option.map_some] at h2
  have hi : i < n := by
    have := (List.getElem?_eq_some_iff.1 hp).1
    rwa [regular_length, List.length_zipWith, fillLoop_length, Nat.min_self, hl] at this
  obtain ⟨v, hv⟩ : ∃ v, (fillLoop nodata [] (mkSteps (tsiDates ce0 k n) vs)).1[i]? = some v :=
    ⟨_, List.getElem?_eq_getElem (by rw [fillLoop_length, hl]; exact hi)⟩
  obtain ⟨w, hw⟩ : ∃ w, vs[i]? = some w := ⟨_, List.getElem?_eq_getElem (by omega)⟩
  have hx : (mkSteps (tsiDates ce0 k n) vs)[i]? = some ⟨(setCe initDate (ce0 + i * k)).ce,
      (setCe initDate (ce0 + i * k)).doy, (setCe initDate (ce0 + i * k)).year, w⟩ := by
    unfold mkSteps tsiDates
    rw [List.getElem?_zipWith, List.getElem?_map, List.getElem?_range hi, hw]
    rfl
  rw [List.getElem?_zipWith, hv, hx] at h2
  simp only [Option.map_some, Option.some.injEq, Prod.mk.injEq] at h2
  rw [h2.2]
  obtain ⟨h3, h4, h5, h6⟩ := setCe_facts (ce0 + i * k)
  simp only [polarCoords, doy2ce]
  rw [polarDay_eq f d hf hd _ h4 (by omega)]
  have e : (ce0 + i * k - 1) % 365 + 1 = (setCe initDate (ce0 + i * k)).doy := by omega
  rw [e]
  split <;> omega

/-- C64, partial: the date of a step (days of 365-day years since the first year) is its own date for all but seven days
of the year, whatever the rounding of ties. Missing: these seven days, see `c64_days_violated`. -/
theorem c64_dates_partial (f d : ℚ → ℚ) (hf : ∀ x, Nearest 24 x (f x)) (hd : ∀ x, Nearest 53 x (d x))
    (nodata yearMin k θ ce0 : Int) (vs : List Int) (pts : List Pt)
    (h : polarSeries f d nodata yearMin k θ (mkSteps (tsiDates ce0 k vs.length) vs) = some pts) :
    pts.length = vs.length ∧ ∀ (i : Nat) p, pts[i]? = some p →
      (ce0 + i * k - 1) % 365 + 1 ∉ [63, 121, 126, 237, 242, 247, 252] → p.ce = ce0 + i * k - 365 * yearMin := by
  obtain ⟨h1, h2⟩ := series_ce hf hd rfl h
  refine ⟨h1, fun i p hp hn => ?_⟩
  rw [h2 i p hp, if_neg (show _ ∉ lostDays from hn)]
  omega

/-- C64, violated: the conversion of days to radians in single precision and back loses a day for seven days of the
year: 63, 121, 126, 237, 242, 247 and 252 become the day before. -/
theorem c64_days_violated (f d : ℚ → ℚ) (hf : ∀ x, Nearest 24 x (f x)) (hd : ∀ x, Nearest 53 x (d x))
    (nodata yearMin k θ ce0 : Int) (vs : List Int) (pts : List Pt)
    (h : polarSeries f d nodata yearMin k θ (mkSteps (tsiDates ce0 k vs.length) vs) = some pts) :
    ∀ (i : Nat) p, pts[i]? = some p → (ce0 + i * k - 1) % 365 + 1 ∈ [63, 121, 126, 237, 242, 247, 252] →
      p.ce = ce0 + i * k - 365 * yearMin - 1 := by
  obtain ⟨h1, h2⟩ := series_ce hf hd rfl h
  intro i p hp hn
  rw [h2 i p hp, if_pos (show _ ∈ lostDays from hn)]

/-- Roundings as the theorems require exist. -/
example : ∃ f : ℚ → ℚ, ∀ x, Nearest 24 x (f x) :=
  ⟨fun x => (exists_nearest 24 (by norm_num) x).choose, fun x => (exists_nearest 24 (by norm_num) x).choose_spec⟩

/-! ## C65: seasons -/

theorem chain_of_get {l : List Pt} {R : Pt → Pt → Prop}
    (h : ∀ (i : Nat) p q, l[i]? = some p → l[i + 1]? = some q → R p q) : l.IsChain R := by
  induction l with
  | nil => exact List.IsChain.nil
  | cons p l ih =>
    cases l with
    | nil => exact List.IsChain.singleton _
    | cons q l =>
      exact List.isChain_cons_cons.2 ⟨h 0 p q rfl rfl, ih fun i a b ha hb => h (i + 1) a b (by simpa using ha)
        (by simpa using hb)⟩

/-- Only the dates matter for the seasons. -/
theorem regular_dates (θ k s y : Int) (l l' : List Pt) (h : l.map (·.ce) = l'.map (·.ce)) :
    (regular θ k s y l).map (fun p => (p.ce, p.season)) = (regular θ k s y l').map fun p => (p.ce, p.season) := by
  induction l generalizing s y l' with
  | nil => cases l' with
    | nil => rfl
    | cons _ _ => simp at h
  | cons p l ih => cases l' with
    | nil => simp at h
    | cons p' l' =>
      simp only [List.map_cons, List.cons.injEq] at h
      simp only [regular, h.1]
      split
      · simp [h.1, ih _ _ _ h.2]
      · simp [h.1, ih _ _ _ h.2]

/-- C65, partial: if the series begins at most one step after the start of the phenological year (day `θ` of the
first year), season `s` consists of the steps from day `θ` of year `s` to the day before day `θ` of year `s + 1`;
the steps before the first start have season -1. Missing: later beginnings, see `c65_late_start_violated`, and steps of
a year or more. -/
theorem c65_seasons_partial (f d : ℚ → ℚ) (hf : ∀ x, Nearest 24 x (f x)) (hd : ∀ x, Nearest 53 x (d x))
    (nodata yearMin k θ ce0 : Int) (vs : List Int) (pts : List Pt) (hk1 : 1 ≤ k) (hk2 : k < 365)
    (hθ1 : 0 ≤ θ) (hθ2 : θ ≤ 365) (h0 : 1 ≤ ce0 - 365 * yearMin) (h1 : ce0 - 365 * yearMin ≤ θ + k)
    (h : polarSeries f d nodata yearMin k θ (mkSteps (tsiDates ce0 k vs.length) vs) = some pts) :
    ∀ p ∈ pts, θ + 365 * p.season ≤ p.ce ∧ p.ce < θ + 365 * (p.season + 1) := by
  obtain ⟨h2, h3⟩ := series_ce hf hd rfl h
  obtain ⟨-, he⟩ := polarSeries_some h
  generalize hz : List.zipWith (polarCoords f d yearMin) (mkSteps (tsiDates ce0 k vs.length) vs)
      (fillLoop nodata [] (mkSteps (tsiDates ce0 k vs.length) vs)).1 = z at he
  have hzc : ∀ (i : Nat) p, z[i]? = some p →
      p.ce = ce0 + i * k - 365 * yearMin - if (ce0 + i * k - 1) % 365 + 1 ∈ lostDays then 1 else 0 := by
    intro i p hp
    have h4 := congrArg (fun z => z[i]?) (regular_map θ k (-1) 0 z)
    simp only [List.getElem?_map, hp, Option.map_some, ← he] at h4
    cases hq : pts[i]? with
    | none => rw [hq] at h4; simp at h4
    | some q =>
      rw [hq] at h4
      simp only [Option.map_some, Option.some.injEq, Prod.mk.injEq] at h4
      rw [← h4.2]
      exact h3 i q hq
  have hlost : ∀ c : Int, (if c ∈ lostDays then (1 : Int) else 0) = 0 ∨
      ((if c ∈ lostDays then (1 : Int) else 0) = 1 ∧ 63 ≤ c) := by
    intro c
    by_cases hc : c ∈ lostDays
    · right
      rw [if_pos hc]
      refine ⟨rfl, ?_⟩
      simp only [lostDays, List.mem_cons, List.not_mem_nil, or_false] at hc
      omega
    · left; rw [if_neg hc]
  have hfirst : ∀ p ∈ z.head?, 0 ≤ p.ce ∧ p.ce ≤ θ + k := by
    intro p hp
    have h5 := hzc 0 p (by rw [← List.head?_eq_getElem?]; exact hp)
    simp only [Nat.cast_zero, zero_mul, add_zero] at h5
    have := hlost ((ce0 - 1) % 365 + 1)
    omega
  have hch : z.IsChain (fun a b => a.ce ≤ b.ce ∧ b.ce ≤ a.ce + (k + 1)) := by
    apply chain_of_get
    intro i p q hp hq
    have h5 := hzc i p hp
    have h6 := hzc (i + 1) q hq
    have h7 : ((i + 1 : Nat) : Int) * k = i * k + k := by push_cast; ring
    rw [h7] at h6
    have h8 := hlost ((ce0 + (i * k + k) - 1) % 365 + 1)
    have h9 := hlost ((ce0 + i * k - 1) % 365 + 1)
    omega
  rw [he]
  cases z with
  | nil => intro p hp; simp [regular] at hp
  | cons p z =>
    have hp := hfirst p (by simp)
    by_cases hc : p.ce < θ
    · exact regular_spec hk2 (p :: z) p.ce (-1) (by omega) (by omega)
        (by intro q hq; simp only [List.head?_cons, Option.mem_def, Option.some.injEq] at hq; subst hq; omega) hch
    · exact regular_spec hk2 (p :: z) (θ - 1) (-1) (by omega) (by omega)
        (by intro q hq; simp only [List.head?_cons, Option.mem_def, Option.some.injEq] at hq; subst hq; omega) hch

/-- The seasons are in order. -/
theorem seasons_sorted {θ : Int} {pts : List Pt}
    (h : ∀ p ∈ pts, θ + 365 * p.season ≤ p.ce ∧ p.ce < θ + 365 * (p.season + 1))
    (hc : pts.Pairwise fun a b => a.ce ≤ b.ce) : pts.Pairwise fun a b => a.season ≤ b.season := by
  refine List.Pairwise.imp_of_mem (fun {a b} ha hb hab => ?_) hc
  have h1 := h a ha
  have h2 := h b hb
  omega

/-- Metrics of a season without values: all dates and integrals are 0. -/
theorem metrics_zero (th : Th) (k θ : Int) (t0 : Nat → Int) (ns : Nat) (l : List Pt) (h1 : 0 < th.start)
    (h2 : 0 < th.mid) (h3 : 0 < th.stop) (hs : l.Pairwise fun a b => a.season ≤ b.season)
    (s : Nat) (hns : s < ns) (hT : total s l = 0) :
    ∃ m, (seriesMetrics th k θ t0 ns l)[s]? = some (outYear θ s, m) ∧
      m.dem = 0 ∧ m.dss = 0 ∧ m.dms = 0 ∧ m.dps = 0 ∧ m.des = 0 ∧ m.dlm = 0 ∧ m.vps = 0 ∧ m.lgs = 0 := by
  refine ⟨_, seriesMetrics_get th k θ t0 ns l hs s hns, ?_⟩
  have hsc : ∀ p ∈ (ofSeason s (ctxs none (accumulate l))).map (·.cur), p.cum = none := by
    rw [ofSeason_cur, ctxs_cur, accumulate_eq l hs]
    intro p hp
    obtain ⟨hp1, hp2⟩ := List.mem_filter.1 hp
    obtain ⟨a, q, b, rfl, rfl⟩ := (mem_annot l []).1 hp1
    have hq : q.season = s := of_decide_eq_true hp2
    simp only [withShare, hq, hT, share_zero]
  have hfind : ∀ t, ((ofSeason s (ctxs none (accumulate l))).map (·.cur)).find? (fun p => reaches p.cum t) = none := by
    intro t
    refine List.find?_eq_none.2 fun p hp => ?_
    rw [hsc p hp]; simp [reaches]
  have hpos : ((ofSeason s (ctxs none (accumulate l))).map (·.cur)).find? (fun p => positive p.cum) = none := by
    refine List.find?_eq_none.2 fun p hp => ?_
    rw [hsc p hp]; simp [positive]
  have hpeak : ((ofSeason s (ctxs none (accumulate l))).map (·.cur)).foldl (maxIn th) Pt.zero = Pt.zero := by
    rcases maxIn_foldl th ((ofSeason s (ctxs none (accumulate l))).map (·.cur)) Pt.zero with h | h
    · exact h.1
    · have := h.2.1
      rw [hsc _ h.1] at this
      simp [reaches] at this
  have hright : ∀ F : List Ctx, (∀ p ∈ F.map (·.cur), p.cum = none) → F.foldl lastFull Pt.zero = Pt.zero := by
    intro F hF
    induction F with
    | nil => rfl
    | cons c F ih =>
      have : c.cur.cum = none := hF c.cur (by simp)
      rw [List.foldl_cons, show lastFull Pt.zero c = Pt.zero by simp [lastFull, this]]
      exact ih fun p hp => hF p (by rw [List.map_cons]; exact List.mem_cons_of_mem _ hp)
  simp only [seasonMetrics]
  rw [scan_eq _ (evStep th) _ _ (accumulate_sorted l hs), evStep_foldl]
  simp only [Ev.init]
  rw [firstAt_foldl h1, firstAt_foldl h2, firstAt_foldl h3, firstPos_foldl, hfind, hfind, hfind, hpos, hpeak,
    hright _ hsc]
  simp [Pt.zero]

/-- C65, violated: if the series begins more than one step (and a day) after the start of the phenological year in its
first year, no season is ever found: all steps have season -1, and all metrics of all years are written as 0. -/
theorem c65_late_start_violated (f d : ℚ → ℚ) (hf : ∀ x, Nearest 24 x (f x)) (hd : ∀ x, Nearest 53 x (d x))
    (nodata yearMin k θ ce0 : Int) (vs : List Int) (pts : List Pt) (th : Th) (ny : Nat) (hk1 : 1 ≤ k)
    (h1 : 0 < th.start) (h2 : 0 < th.mid) (h3 : 0 < th.stop)
    (h0 : θ + k + 1 < ce0 - 365 * yearMin)
    (h : polarSeries f d nodata yearMin k θ (mkSteps (tsiDates ce0 k vs.length) vs) = some pts) :
    (∀ p ∈ pts, p.season = -1) ∧
    ∀ s : Nat, s < ny - 1 → ∃ ms m, polarPixel f d nodata yearMin k θ th ny
      (mkSteps (tsiDates ce0 k vs.length) vs) = some ms ∧ ms[s]? = some (if θ < 182 then s else s + 1, m) ∧
      m.dem = 0 ∧ m.dss = 0 ∧ m.dms = 0 ∧ m.dps = 0 ∧ m.des = 0 ∧ m.dlm = 0 ∧ m.vps = 0 ∧ m.lgs = 0 := by
  obtain ⟨h4, h5⟩ := series_ce hf hd rfl h
  have hall : ∀ p ∈ pts, p.season = -1 := by
    obtain ⟨-, he⟩ := polarSeries_some h
    rw [he]
    refine regular_late _ _ _ ?_
    intro p hp
    obtain ⟨i, hi, rfl⟩ := List.mem_iff_getElem.1 hp
    have h6 := congrArg (fun z => z[i]?) (regular_map θ k (-1) 0 (List.zipWith (polarCoords f d yearMin)
      (mkSteps (tsiDates ce0 k vs.length) vs) (fillLoop nodata [] (mkSteps (tsiDates ce0 k vs.length) vs)).1))
    simp only [List.getElem?_map, List.getElem?_eq_getElem hi, Option.map_some, ← he] at h6
    cases hq : pts[i]? with
    | none => rw [hq] at h6; simp at h6
    | some q =>
      rw [hq] at h6
      simp only [Option.map_some, Option.some.injEq, Prod.mk.injEq] at h6
      rw [← h6.2, h5 i q hq]
      have : 0 ≤ (i : Int) * k := by positivity
      split <;> omega
  refine ⟨hall, fun s hs => ?_⟩
  have hsorted : pts.Pairwise fun a b => a.season ≤ b.season :=
    List.pairwise_of_forall_mem_list fun a ha b hb => by rw [hall a ha, hall b hb]
  obtain ⟨m, h6, h7⟩ := metrics_zero th k θ (fun _ => 0) (ny - 1) pts h1 h2 h3 hsorted s hs
    (total_none (by intro p hp; rw [hall p hp]; omega))
  exact ⟨_, m, by rw [polarPixel, h, Option.map_some], h6, h7⟩

/-- C65: the seasons are written to different years of the product. -/
theorem c65_years (f d : ℚ → ℚ) (nodata yearMin k θ : Int) (th : Th) (ny : Nat) (l : List Step)
    (ms : List (Nat × Metrics)) (h : polarPixel f d nodata yearMin k θ th ny l = some ms) :
    ms.length = ny - 1 ∧ (∀ x ∈ ms, x.1 < ny) ∧
      ms.map (·.1) = (List.range (ny - 1)).map fun s => if θ < 182 then s else s + 1 := by
  unfold polarPixel at h
  obtain ⟨pts, -, rfl⟩ := Option.map_eq_some_iff.1 h
  have key : ∀ (n s : Nat) (L : List Ctx), (seasonLoop th k θ (fun _ => 0) n s L).map (·.1) =
      (List.range n).map fun i => if θ < 182 then s + i else s + i + 1 := by
    intro n
    induction n with
    | zero => intros; rfl
    | succ n ih =>
      intro s L
      simp only [seasonLoop, List.map_cons, ih, List.range_succ_eq_map, List.map_map]
      refine List.cons_eq_cons.2 ⟨by simp [outYear], ?_⟩
      refine List.map_congr_left fun i _ => ?_
      simp only [Function.comp]
      split <;> omega
  have hk := key (ny - 1) 0 (ctxs none (accumulate pts))
  simp only [Nat.zero_add] at hk
  refine ⟨seasonLoop_length _ _ _ _ _ _ _, ?_, hk⟩
  intro x hx
  have : x.1 ∈ (seriesMetrics th k θ (fun _ => 0) (ny - 1) pts).map (·.1) := List.mem_map_of_mem hx
  unfold seriesMetrics at this
  rw [hk] at this
  obtain ⟨i, hi, he⟩ := List.mem_map.1 this
  have := List.mem_range.1 hi
  rw [← he]
  split <;> omega

/-! ## C66: events -/

theorem scan_ev (th : Th) (s : Int) (l : List Pt) (hs : l.Pairwise fun a b => a.season ≤ b.season) :
    scan s (evStep th) Ev.init (ctxs none (accumulate l)) =
    ⟨(steps s (annot (withShare l) [] l)).foldl firstPos Pt.zero,
      (steps s (annot (withShare l) [] l)).foldl (firstAt th.start) Pt.zero,
      (steps s (annot (withShare l) [] l)).foldl (firstAt th.mid) Pt.zero,
      (steps s (annot (withShare l) [] l)).foldl (maxIn th) Pt.zero,
      (steps s (annot (withShare l) [] l)).foldl (firstAt th.stop) Pt.zero,
      (ofSeason s (ctxs none (accumulate l))).foldl lastFull Pt.zero⟩ := by
  rw [scan_eq _ (evStep th) _ _ (accumulate_sorted l hs), evStep_foldl, ofSeason_cur, ctxs_cur, accumulate_eq l hs]
  rfl

/-- An event is the step at which the share is reached. -/
theorem event_spec {l : List Pt} {s : Int} {t : ℚ} (h0 : 0 < t) (h1 : t ≤ 1) (hT : 0 < total s l) :
    ∃ p, Crosses l s t p ∧ ((steps s (annot (withShare l) [] l)).foldl (firstAt t) Pt.zero).ce = p.ce ∧
      ((steps s (annot (withShare l) [] l)).foldl (firstAt t) Pt.zero).val = p.val := by
  obtain ⟨a, p, b, e1, e2, e3, e4, e5⟩ := find_annot (all := l) (s := s) (fun x => t * total s l ≤ x)
    (fun q => reaches q.cum t) (by
      intro pre p hp
      simp only [withShare, hp]
      exact reaches_share hT) l [] rfl (by rw [total_nil]; have := mul_pos h0 hT; linarith)
    (by nlinarith)
  refine ⟨p, ⟨a, b, e1, e2, by simpa using e3, by simpa using e4⟩, ?_⟩
  rw [firstAt_foldl h0, e5]
  simp [Pt.zero, withShare]

theorem begin_spec {l : List Pt} {s : Int} (hv : ∀ p ∈ l, 0 ≤ p.val) (hT : 0 < total s l) :
    ∃ p, Begins l s p ∧ ((steps s (annot (withShare l) [] l)).foldl firstPos Pt.zero).ce = p.ce ∧
      ((steps s (annot (withShare l) [] l)).foldl firstPos Pt.zero).val = p.val := by
  obtain ⟨a, p, b, e1, e2, e3, e4, e5⟩ := find_annot (all := l) (s := s) (fun x => 0 < x)
    (fun q => positive q.cum) (by
      intro pre p hp
      simp only [withShare, hp]
      exact positive_share hT) l [] rfl (by rw [total_nil]; exact lt_irrefl _) hT
  have ha : 0 ≤ total s a := total_nonneg (by intro q hq; exact hv q (by rw [e1]; simp [hq]))
  refine ⟨p, ⟨a, b, e1, e2, le_antisymm (by simpa using e3) ha, by simpa using e4⟩, ?_⟩
  rw [firstPos_foldl, e5]
  simp [Pt.zero, withShare]

/-- C66: in each season with values, the start, middle and end of the growing season are the steps at which the running
total of the values reaches the respective share of the total of the season; the phenological year begins with the
first positive value and ends with the first step after the season (or the last step of the series). The dates and
values of these steps are reported, and the lengths are the differences of the dates. -/
theorem c66_events (th : Th) (k θ : Int) (t0 : Nat → Int) (ns : Nat) (l : List Pt)
    (hs : l.Pairwise fun a b => a.season ≤ b.season) (hv : ∀ p ∈ l, 0 ≤ p.val)
    (h1 : 0 < th.start ∧ th.start ≤ 1) (h2 : 0 < th.mid ∧ th.mid ≤ 1) (h3 : 0 < th.stop ∧ th.stop ≤ 1)
    (s : Nat) (hns : s < ns) (hT : 0 < total s l) :
    ∃ m, (seriesMetrics th k θ t0 ns l)[s]? = some (if θ < 182 then s else s + 1, m) ∧
      (∃ p, Begins l s p ∧ m.dem = p.ce ∧ m.vem = p.val) ∧
      (∃ p, Crosses l s th.start p ∧ m.dss = p.ce ∧ m.vss = p.val) ∧
      (∃ p, Crosses l s th.mid p ∧ m.dms = p.ce ∧ m.vms = p.val) ∧
      (∃ p, Crosses l s th.stop p ∧ m.des = p.ce ∧ m.ves = p.val) ∧
      (∃ p, Ends l s p ∧ m.dlm = p.ce ∧ m.vlm = p.val) ∧
      m.lgs = m.des - m.dss ∧ m.lts = m.dlm - m.dem := by
  refine ⟨_, seriesMetrics_get th k θ t0 ns l hs s hns, ?_⟩
  simp only [seasonMetrics]
  rw [scan_ev th s l hs]
  exact ⟨begin_spec hv hT, event_spec h1.1 h1.2 hT, event_spec h2.1 h2.2 hT, event_spec h3.1 h3.2 hT,
    right_spec hs hT, trivial, trivial⟩

theorem total_prefix {s : Int} {a b : List Pt} (h : a <+: b) (hv : ∀ p ∈ b, 0 ≤ p.val) : total s a ≤ total s b := by
  obtain ⟨c, rfl⟩ := h
  rw [total_append]
  have : 0 ≤ total s c := total_nonneg (by intro q hq; exact hv q (by simp [hq]))
  linarith

/-- Two steps of a series: one is before the other or they are the same. -/
theorem split_cases {a a' b b' : List Pt} {p p' : Pt} (h : a ++ p :: b = a' ++ p' :: b') :
    a' ++ [p'] <+: a ∨ (a = a' ∧ p = p') ∨ a ++ [p] <+: a' := by
  rcases lt_trichotomy a.length a'.length with hl | hl | hl
  · right; right
    refine List.prefix_of_prefix_length_le (l₃ := a ++ p :: b) ⟨b, by simp⟩ ⟨p' :: b', h.symm⟩ (by simp; omega)
  · right; left
    obtain ⟨h1, h2⟩ := List.append_inj h hl
    exact ⟨h1, (List.cons.inj h2).1⟩
  · left
    refine List.prefix_of_prefix_length_le (l₃ := a ++ p :: b) ⟨b', by rw [h]; simp⟩ ⟨p :: b, rfl⟩ (by simp; omega)

theorem ce_le {l a a' b b' : List Pt} {p p' : Pt} (hc : l.Pairwise fun x y => x.ce ≤ y.ce) (h : l = a ++ p :: b)
    (h' : l = a' ++ p' :: b') (hn : ¬ a' ++ [p'] <+: a) : p.ce ≤ p'.ce := by
  rcases split_cases (h.symm.trans h') with h1 | ⟨-, rfl⟩ | h1
  · exact absurd h1 hn
  · exact le_refl _
  · have : p ∈ a' := h1.subset (by simp)
    rw [h'] at hc
    exact (List.pairwise_append.1 hc).2.2 p this p' (by simp)

theorem crosses_le {l : List Pt} {s : Int} {t t' : ℚ} {p p' : Pt} (hc : l.Pairwise fun x y => x.ce ≤ y.ce)
    (hv : ∀ p ∈ l, 0 ≤ p.val) (ht : t ≤ t') (hT : 0 ≤ total s l) (h : Crosses l s t p) (h' : Crosses l s t' p') :
    p.ce ≤ p'.ce := by
  obtain ⟨a, b, e1, -, e3, -⟩ := h
  obtain ⟨a', b', e1', -, -, e4'⟩ := h'
  refine ce_le hc e1 e1' fun hp => ?_
  have := total_prefix (s := s) hp (by intro q hq; exact hv q (by rw [e1]; simp [hq]))
  have : t * total s l ≤ t' * total s l := mul_le_mul_of_nonneg_right ht hT
  linarith

theorem begins_le {l : List Pt} {s : Int} {t : ℚ} {p p' : Pt} (hc : l.Pairwise fun x y => x.ce ≤ y.ce)
    (hv : ∀ p ∈ l, 0 ≤ p.val) (ht : 0 < t) (hT : 0 < total s l) (h : Begins l s p) (h' : Crosses l s t p') :
    p.ce ≤ p'.ce := by
  obtain ⟨a, b, e1, -, e3, -⟩ := h
  obtain ⟨a', b', e1', -, -, e4'⟩ := h'
  refine ce_le hc e1 e1' fun hp => ?_
  have := total_prefix (s := s) hp (by intro q hq; exact hv q (by rw [e1]; simp [hq]))
  have := mul_pos ht hT
  linarith

theorem ends_ge {l : List Pt} {s : Int} {t : ℚ} {p p' : Pt} (hs : l.Pairwise fun a b => a.season ≤ b.season)
    (hc : l.Pairwise fun x y => x.ce ≤ y.ce) (h : Crosses l s t p) (h' : Ends l s p') : p.ce ≤ p'.ce := by
  obtain ⟨a, b, e1, e2, -, -⟩ := h
  rcases h' with ⟨a', b', e1', e2', -⟩ | ⟨a', e1', -⟩
  · refine ce_le hc e1 e1' fun hp => ?_
    have : p' ∈ a := hp.subset (by simp)
    rw [e1] at hs
    have := (List.pairwise_append.1 hs).2.2 p' this p (by simp)
    omega
  · refine ce_le hc e1 e1' fun hp => ?_
    have h1 := hp.length_le
    have h2 := congrArg List.length e1
    rw [e1'] at h2
    simp at h1 h2
    omega

/-- C66: with ordered thresholds and dates, the events are in order, and the lengths are not negative. -/
theorem c66_order (th : Th) (k θ : Int) (t0 : Nat → Int) (ns : Nat) (l : List Pt)
    (hs : l.Pairwise fun a b => a.season ≤ b.season) (hc : l.Pairwise fun a b => a.ce ≤ b.ce)
    (hv : ∀ p ∈ l, 0 ≤ p.val) (h1 : 0 < th.start) (h2 : th.start ≤ th.mid) (h3 : th.mid ≤ th.stop) (h4 : th.stop ≤ 1)
    (s : Nat) (hns : s < ns) (hT : 0 < total s l) :
    ∃ y m, (seriesMetrics th k θ t0 ns l)[s]? = some (y, m) ∧
      m.dem ≤ m.dss ∧ m.dss ≤ m.dms ∧ m.dms ≤ m.des ∧ m.des ≤ m.dlm ∧ 0 ≤ m.lgs ∧ 0 ≤ m.lts := by
  obtain ⟨m, h, ⟨p1, b1, d1, -⟩, ⟨p2, b2, d2, -⟩, ⟨p3, b3, d3, -⟩, ⟨p4, b4, d4, -⟩, ⟨p5, b5, d5, -⟩, h5, h6⟩ :=
    c66_events th k θ t0 ns l hs hv ⟨h1, by linarith⟩ ⟨by linarith, by linarith⟩ ⟨by linarith, h4⟩ s hns hT
  have o1 := begins_le hc hv h1 hT b1 b2
  have o2 := crosses_le hc hv h2 hT.le b2 b3
  have o3 := crosses_le hc hv h3 hT.le b3 b4
  have o4 := ends_ge hs hc b4 b5
  exact ⟨_, m, h, by omega, by omega, by omega, by omega, by omega, by omega⟩

/-- The steps that the search for the peak considers. -/
theorem within_iff {th : Th} {l : List Pt} {s : Int} (hT : 0 < total s l) {x : Pt}
    (hx : x ∈ steps s (annot (withShare l) [] l)) (h1 : reaches x.cum th.start = true)
    (h2 : below x.cum th.stop = true) : ∃ p, Within l s th.start th.stop p ∧ x.ce = p.ce ∧ x.val = p.val := by
  obtain ⟨hx1, hx2⟩ := List.mem_filter.1 hx
  obtain ⟨a, p, b, e1, rfl⟩ := (mem_annot l []).1 hx1
  have hp : p.season = s := of_decide_eq_true hx2
  simp only [withShare, hp, List.nil_append] at h1 h2
  exact ⟨p, ⟨a, b, e1, hp, (reaches_share hT).1 h1, (below_share hT).1 h2⟩, rfl, rfl⟩

theorem within_mem {th : Th} {l : List Pt} {s : Int} (hT : 0 < total s l) {p : Pt}
    (h : Within l s th.start th.stop p) : ∃ x ∈ steps s (annot (withShare l) [] l),
      reaches x.cum th.start = true ∧ below x.cum th.stop = true ∧ x.ce = p.ce ∧ x.val = p.val := by
  obtain ⟨a, b, e1, hp, h1, h2⟩ := h
  refine ⟨withShare l a p, ?_, ?_, ?_, rfl, rfl⟩
  · refine List.mem_filter.2 ⟨(mem_annot l []).2 ⟨a, p, b, e1, by simp⟩, decide_eq_true hp⟩
  · simp only [withShare, hp]; exact (reaches_share hT).2 h1
  · simp only [withShare, hp]; exact (below_share hT).2 h2

/-- C66, partial: the peak is a greatest value of the growing season (from the start up to, but not including, the
end), if there is a positive value in it. Missing: seasons whose running total passes start and end in one step, see
`c66_peak_violated`. -/
theorem c66_peak_partial (th : Th) (k θ : Int) (t0 : Nat → Int) (ns : Nat) (l : List Pt)
    (hs : l.Pairwise fun a b => a.season ≤ b.season) (s : Nat) (hns : s < ns) (hT : 0 < total s l)
    (hw : ∃ q, Within l s th.start th.stop q ∧ 0 < q.val) :
    ∃ y m, (seriesMetrics th k θ t0 ns l)[s]? = some (y, m) ∧
      ∃ p, Within l s th.start th.stop p ∧ m.dps = p.ce ∧ m.vps = p.val ∧
        ∀ q, Within l s th.start th.stop q → q.val ≤ p.val := by
  refine ⟨_, _, seriesMetrics_get th k θ t0 ns l hs s hns, ?_⟩
  simp only [seasonMetrics]
  rw [scan_ev th s l hs]
  simp only
  obtain ⟨q, hq, hq0⟩ := hw
  rcases maxIn_foldl th (steps s (annot (withShare l) [] l)) Pt.zero with ⟨-, h2⟩ | ⟨h1, h2, h3, -, h5⟩
  · obtain ⟨x, hx1, hx2, hx3, -, hx5⟩ := within_mem hT hq
    have := h2 x hx1 hx2 hx3
    rw [hx5] at this
    simp [Pt.zero] at this
    linarith
  · obtain ⟨p, hp1, hp2, hp3⟩ := within_iff hT h1 h2 h3
    refine ⟨p, hp1, hp2, hp3, ?_⟩
    intro q hq
    obtain ⟨x, hx1, hx2, hx3, -, hx5⟩ := within_mem hT hq
    rw [← hx5, ← hp3]
    exact h5 x hx1 hx2 hx3

/-- C66, violated: if the running total passes the start and the end of the growing season in one step, the season has
values but no peak: date and value of the peak are written as 0. -/
theorem c66_peak_violated (th : Th) (k θ : Int) (t0 : Nat → Int) (ns : Nat) (l : List Pt)
    (hs : l.Pairwise fun a b => a.season ≤ b.season) (s : Nat) (hns : s < ns) (hT : 0 < total s l)
    (hw : ∀ q, ¬ Within l s th.start th.stop q) :
    ∃ y m, (seriesMetrics th k θ t0 ns l)[s]? = some (y, m) ∧ m.dps = 0 ∧ m.vps = 0 := by
  refine ⟨_, _, seriesMetrics_get th k θ t0 ns l hs s hns, ?_⟩
  simp only [seasonMetrics]
  rw [scan_ev th s l hs]
  simp only
  rcases maxIn_foldl th (steps s (annot (withShare l) [] l)) Pt.zero with ⟨h1, -⟩ | ⟨h1, h2, h3, -, -⟩
  · rw [h1]; exact ⟨rfl, rfl⟩
  · obtain ⟨p, hp1, -, -⟩ := within_iff hT h1 h2 h3
    exact absurd hp1 (hw p)

/-- C66, violated: a season whose values are all 0 (or that has no steps) is not nodata: all its dates are written
as 0. -/
theorem c66_empty_violated (th : Th) (k θ : Int) (t0 : Nat → Int) (ns : Nat) (l : List Pt) (h1 : 0 < th.start)
    (h2 : 0 < th.mid) (h3 : 0 < th.stop) (hs : l.Pairwise fun a b => a.season ≤ b.season)
    (s : Nat) (hns : s < ns) (hT : total s l = 0) :
    ∃ m, (seriesMetrics th k θ t0 ns l)[s]? = some (if θ < 182 then s else s + 1, m) ∧
      m.dem = 0 ∧ m.dss = 0 ∧ m.dms = 0 ∧ m.dps = 0 ∧ m.des = 0 ∧ m.dlm = 0 ∧ m.vps = 0 ∧ m.lgs = 0 :=
  metrics_zero th k θ t0 ns l h1 h2 h3 hs s hns hT

/-- The dates of a series are in order. -/
theorem series_sorted {f d : ℚ → ℚ} (hf : ∀ x, Nearest 24 x (f x)) (hd : ∀ x, Nearest 53 x (d x))
    {nodata yearMin k θ ce0 : Int} {vs : List Int} {pts : List Pt} (hk : 1 ≤ k)
    (h : polarSeries f d nodata yearMin k θ (mkSteps (tsiDates ce0 k vs.length) vs) = some pts) :
    pts.Pairwise fun a b => a.ce ≤ b.ce := by
  obtain ⟨-, h3⟩ := series_ce hf hd rfl h
  rw [List.pairwise_iff_getElem]
  intro i j hi hj hij
  rw [h3 i _ (List.getElem?_eq_getElem hi), h3 j _ (List.getElem?_eq_getElem hj)]
  have h4 : (i : Int) * k + k ≤ j * k := by nlinarith
  have h5 : (if (ce0 + i * k - 1) % 365 + 1 ∈ lostDays then (1 : Int) else 0) ≥ 0 := by split <;> omega
  have h6 : (if (ce0 + j * k - 1) % 365 + 1 ∈ lostDays then (1 : Int) else 0) ≤ 1 := by split <;> omega
  omega

/-- The values of a series are not negative. -/
theorem series_nonneg {f d : ℚ → ℚ} {nodata yearMin k θ : Int} {l : List Step} {pts : List Pt}
    (h : polarSeries f d nodata yearMin k θ l = some pts) : ∀ p ∈ pts, 0 ≤ p.val := by
  obtain ⟨-, rfl⟩ := polarSeries_some h
  have h0 : ∀ (pre l : List Step), ∀ v ∈ (fillLoop nodata pre l).1, 0 ≤ v := by
    intro pre l
    induction l generalizing pre with
    | nil => simp [fillLoop]
    | cons x l ih =>
      intro v hv
      simp only [fillLoop, List.mem_cons] at hv
      rcases hv with rfl | hv
      · rw [clip_eq]; exact le_max_left _ _
      · exact ih _ v hv
  intro p hp
  have h1 : p.val ∈ (regular θ k (-1) 0 (List.zipWith (polarCoords f d yearMin) l (fillLoop nodata [] l).1)).map
      (·.val) := List.mem_map_of_mem hp
  have h2 := congrArg (List.map Prod.fst) (regular_map θ k (-1) 0
    (List.zipWith (polarCoords f d yearMin) l (fillLoop nodata [] l).1))
  simp only [List.map_map] at h2
  have h3 : p.val ∈ (List.zipWith (polarCoords f d yearMin) l (fillLoop nodata [] l).1).map (·.val) := by
    have : (Prod.fst ∘ fun p : Pt => (p.val, p.ce)) = fun p => p.val := rfl
    rw [this] at h2
    rw [← h2]; exact h1
  obtain ⟨q, hq, he⟩ := List.mem_map.1 h3
  obtain ⟨i, hi, rfl⟩ := List.mem_iff_getElem.1 hq
  rw [← he, List.getElem_zipWith]
  exact h0 [] l _ (List.getElem_mem _)

/-- C66: the events of a complete pixel whose series begins at most one step after the start of the phenological
year are in order in every season with values. -/
theorem c66_pixel (f d : ℚ → ℚ) (hf : ∀ x, Nearest 24 x (f x)) (hd : ∀ x, Nearest 53 x (d x))
    (nodata yearMin k θ ce0 : Int) (vs : List Int) (pts : List Pt) (th : Th) (ny : Nat) (hk1 : 1 ≤ k) (hk2 : k < 365)
    (hθ1 : 0 ≤ θ) (hθ2 : θ ≤ 365) (h0 : 1 ≤ ce0 - 365 * yearMin) (h1 : ce0 - 365 * yearMin ≤ θ + k)
    (ht1 : 0 < th.start) (ht2 : th.start ≤ th.mid) (ht3 : th.mid ≤ th.stop) (ht4 : th.stop ≤ 1)
    (h : polarSeries f d nodata yearMin k θ (mkSteps (tsiDates ce0 k vs.length) vs) = some pts)
    (s : Nat) (hs : s + 1 < ny) (hT : 0 < total s pts) :
    ∃ ms y m, polarPixel f d nodata yearMin k θ th ny (mkSteps (tsiDates ce0 k vs.length) vs) = some ms ∧
      ms[s]? = some (y, m) ∧
      m.dem ≤ m.dss ∧ m.dss ≤ m.dms ∧ m.dms ≤ m.des ∧ m.des ≤ m.dlm ∧ 0 ≤ m.lgs ∧ 0 ≤ m.lts := by
  have hc := series_sorted hf hd hk1 h
  have hseas := c65_seasons_partial f d hf hd nodata yearMin k θ ce0 vs pts hk1 hk2 hθ1 hθ2 h0 h1 h
  obtain ⟨y, m, h2, h3⟩ := c66_order th k θ (fun _ => 0) (ny - 1) pts (seasons_sorted hseas hc) hc (series_nonneg h)
    ht1 ht2 ht3 ht4 s (by omega) hT
  exact ⟨_, y, m, by rw [polarPixel, h, Option.map_some], h2, h3⟩

/-- A series with two seasons. -/
def demo : List Pt :=
  [⟨10, none, 5, -1⟩, ⟨10, none, 100, 0⟩, ⟨20, none, 150, 0⟩, ⟨50, none, 200, 0⟩, ⟨20, none, 250, 0⟩, ⟨0, none, 300, 0⟩,
    ⟨5, none, 460, 1⟩, ⟨0, none, 500, 1⟩]

/-- The hypotheses hold for season 0, where all steps of the definition occur; season 1 has no peak. -/
example : demo.Pairwise (fun a b => a.season ≤ b.season) ∧ demo.Pairwise (fun a b => a.ce ≤ b.ce) ∧
    total 0 demo = 100 ∧ (seriesMetrics ⟨1/5, 1/2, 4/5⟩ 50 90 (fun _ => 0) 2 demo).map
      (fun x => (x.1, [x.2.dem, x.2.dss, x.2.dms, x.2.dps, x.2.des, x.2.dlm])) =
      [(0, [100, 150, 200, 150, 200, 460]), (1, [460, 460, 460, 0, 460, 500])] := by decide +kernel

/-! ## C67: integrals, amplitudes and rates -/

theorem max_sub_max (r : ℚ) : max 0 r - max 0 (-r) = r := by
  rcases le_total 0 r with h | h
  · rw [max_eq_right h, max_eq_left (by linarith), sub_zero]
  · rw [max_eq_left h, max_eq_right (by linarith)]; ring

/-- C67: the total integral of a season is the sum of its values times the step in years; the base line is the mean of
the values at the beginning and at the end of the phenological year, the seasonal integral is the part above it, the
latent integral the part below it, and both make up the total. The rising and falling integrals are the increases and
decreases times the step in months; their difference is the net change. The amplitudes are the peak over the base
level, the green level and the middle. -/
theorem c67_integrals (th : Th) (k θ : Int) (t0 : Nat → Int) (ns : Nat) (l : List Pt)
    (hs : l.Pairwise fun a b => a.season ≤ b.season) (s : Nat) (hns : s < ns) :
    ∃ y m, (seriesMetrics th k θ t0 ns l)[s]? = some (y, m) ∧
      m.ibt = k * ((steps s l).map fun p => p.val).sum / 365 ∧
      m.vbl = (m.vem + m.vlm) / 2 ∧
      m.ist = k * ((steps s l).map fun p => max 0 (p.val - m.vbl)).sum / 365 ∧
      m.ibl = k * ((steps s l).map fun p => min p.val m.vbl).sum / 365 ∧
      m.ibt = m.ist + m.ibl ∧
      m.irr = k * ((rises s l).map fun r => max 0 r).sum / 30 ∧
      m.ifr = k * ((rises s l).map fun r => max 0 (-r)).sum / 30 ∧
      m.irr - m.ifr = k * (rises s l).sum / 30 ∧
      m.vsa = m.vps - m.vbl ∧ m.vga = m.vps - (m.vss + m.ves) / 2 ∧ m.vpa = m.vps - m.vms := by
  refine ⟨_, _, seriesMetrics_get th k θ t0 ns l hs s hns, ?_⟩
  simp only [seasonMetrics]
  have hsort := accumulate_sorted l hs
  generalize he : scan (s : Int) (evStep th) Ev.init (ctxs none (accumulate l)) = e
  rw [scan_eq _ (intStep th k _ _) _ _ hsort]
  obtain ⟨i1, i2, i3, i4, i5, -⟩ := intStep_foldl th k ((e.start.val + e.stop.val) / 2)
    ((e.left.val + e.right.val) / 2) (ofSeason s (ctxs none (accumulate l))) Integral.init
  have hval : ∀ g : ℚ → ℚ, (ofSeason s (ctxs none (accumulate l))).map (fun c => g c.cur.val) =
      (steps s l).map fun p => g p.val := by
    intro g
    have := congrArg (List.map g) (vals_steps s l hs)
    simpa [List.map_map, Function.comp_def] using this
  have hrise : ∀ g : ℚ → ℚ, g 0 = 0 → ((ofSeason s (ctxs none (accumulate l))).map (fun c => g c.rise)).sum =
      ((rises s l).map g).sum := by
    intro g hg
    rw [rise_sum s g hg, rises_congr (accumulate_map (fun v _ s => (v, s)) l hs)]
    simp
  rw [i1, i2, i3, i4, i5]
  rw [hval (fun v => max 0 (v - (e.left.val + e.right.val) / 2)), hval (fun v => min v ((e.left.val + e.right.val) / 2)),
    hval (fun v => v), hrise (fun r => max 0 r) (by simp), hrise (fun r => max 0 (-r)) (by simp)]
  have hsum : ∀ (L : List ℚ) (b : ℚ), L.sum = (L.map fun v => max 0 (v - b)).sum + (L.map fun v => min v b).sum := by
    intro L b
    induction L with
    | nil => simp
    | cons v L ih =>
      simp only [List.map_cons, List.sum_cons]
      rw [ih]
      rcases le_total v b with h | h
      · rw [max_eq_left (by linarith), min_eq_left h]; ring
      · rw [max_eq_right (by linarith), min_eq_right h]; ring
  have hnet : ∀ L : List ℚ, (L.map fun r => max 0 r).sum - (L.map fun r => max 0 (-r)).sum = L.sum := by
    intro L
    induction L with
    | nil => simp
    | cons r L ih =>
      simp only [List.map_cons, List.sum_cons]
      rw [← ih]
      have := max_sub_max r
      linarith
  have h1 := hsum ((steps s l).map (·.val)) ((e.left.val + e.right.val) / 2)
  rw [List.map_map, List.map_map] at h1
  have h2 := hnet (rises s l)
  simp only [Integral.init, zero_add]
  refine ⟨trivial, trivial, trivial, trivial, ?_, trivial, trivial, ?_, trivial, trivial, trivial⟩
  · simp only [Function.comp_def] at h1
    rw [h1]; ring
  · rw [← h2]; ring

/-- C67: the green integral is the part of the growing season above the mean of the values at its start and end. -/
theorem c67_green (th : Th) (k θ : Int) (t0 : Nat → Int) (ns : Nat) (l : List Pt)
    (hs : l.Pairwise fun a b => a.season ≤ b.season) (s : Nat) (hns : s < ns) (hT : 0 < total s l) :
    ∃ y m, (seriesMetrics th k θ t0 ns l)[s]? = some (y, m) ∧
      m.igs = k * ((window s (total s l) th.start th.stop 0 l).map
        fun p => max 0 (p.val - (m.vss + m.ves) / 2)).sum / 365 := by
  refine ⟨_, _, seriesMetrics_get th k θ t0 ns l hs s hns, ?_⟩
  simp only [seasonMetrics]
  have hsort := accumulate_sorted l hs
  generalize he : scan (s : Int) (evStep th) Ev.init (ctxs none (accumulate l)) = e
  rw [scan_eq _ (intStep th k _ _) _ _ hsort]
  obtain ⟨-, -, -, -, -, i6⟩ := intStep_foldl th k ((e.start.val + e.stop.val) / 2)
    ((e.left.val + e.right.val) / 2) (ofSeason s (ctxs none (accumulate l))) Integral.init
  rw [i6]
  have h1 := (window_eq (all := l) th.start th.stop hT l [] none).1
  rw [← accumulate_eq l hs, total_nil] at h1
  have h2 := congrArg (List.map fun v => max 0 (v - (e.start.val + e.stop.val) / 2)) h1
  rw [List.map_map, List.map_map] at h2
  have h3 : (fun c : Ctx => reaches c.cur.cum th.start && below c.cur.cum th.stop) = inWindow th.start th.stop := rfl
  rw [h3]
  simp only [Function.comp_def] at h2
  rw [h2]
  simp [Integral.init]

theorem scan_rate (th : Th) (k : Int) (hk : 1 ≤ k) (s : Int) (l : List Pt)
    (hs : l.Pairwise fun a b => a.season ≤ b.season) (hT : 0 < total s l) :
    scan s (rateStep th k) Rate.init (ctxs none (accumulate l)) =
      let E := windowRises s (total s l) th.start th.mid 0 none l
      let L := windowRises s (total s l) th.mid th.stop 0 none l
      ⟨E.length, (E.map fun r => max 0 r / (k : ℚ)).sum, (E.map fun r => max 0 r / (k : ℚ)).foldl max 0,
        L.length, (L.map fun r => max 0 (-r) / (k : ℚ)).sum, (L.map fun r => max 0 (-r) / (k : ℚ)).foldl max 0⟩ := by
  rw [scan_eq _ _ _ _ (accumulate_sorted l hs), rateStep_foldl th k (by omega) _ _ (le_refl _) (le_refl _)]
  have h1 := (window_eq (all := l) th.start th.mid hT l [] none).2
  have h2 := (window_eq (all := l) th.mid th.stop hT l [] none).2
  rw [← accumulate_eq l hs, total_nil] at h1 h2
  simp only [Option.map_none] at h1 h2
  simp only [← h1, ← h2, List.length_map, List.map_map, Rate.init, Nat.zero_add, zero_add]
  rfl

/-- C67, partial: the mean and maximum rising (falling) rate are those of the increases (decreases) in the early (late)
part of the growing season, per month. Missing: growing seasons without steps in that part, see
`c67_rates_violated`. -/
theorem c67_rates_partial (th : Th) (k θ : Int) (t0 : Nat → Int) (ns : Nat) (l : List Pt) (hk : 1 ≤ k)
    (hs : l.Pairwise fun a b => a.season ≤ b.season) (s : Nat) (hns : s < ns) (hT : 0 < total s l)
    (E L : List ℚ) (hE : E = windowRises s (total s l) th.start th.mid 0 none l)
    (hL : L = windowRises s (total s l) th.mid th.stop 0 none l) (hE0 : E ≠ []) (hL0 : L ≠ []) :
    ∃ y m, (seriesMetrics th k θ t0 ns l)[s]? = some (y, m) ∧
      m.rar = some ((E.map fun r => max 0 r / (k : ℚ)).sum / E.length * 30) ∧
      m.raf = some ((L.map fun r => max 0 (-r) / (k : ℚ)).sum / L.length * 30) ∧
      (0 ≤ m.rmr ∧ (∀ r ∈ E, r / k * 30 ≤ m.rmr) ∧ (m.rmr = 0 ∨ ∃ r ∈ E, m.rmr = r / k * 30)) ∧
      (0 ≤ m.rmf ∧ (∀ r ∈ L, -r / k * 30 ≤ m.rmf) ∧ (m.rmf = 0 ∨ ∃ r ∈ L, m.rmf = -r / k * 30)) := by
  refine ⟨_, _, seriesMetrics_get th k θ t0 ns l hs s hns, ?_⟩
  have hk' : (0 : ℚ) < k := by exact_mod_cast hk
  simp only [seasonMetrics]
  rw [scan_rate th k hk s l hs hT]
  simp only [← hE, ← hL]
  rw [if_neg (by simpa using hE0), if_neg (by simpa using hL0)]
  have key : ∀ W : List ℚ, 0 ≤ (W.map fun r => max 0 r / (k : ℚ)).foldl max 0 * 30 ∧
      (∀ r ∈ W, r / k * 30 ≤ (W.map fun r => max 0 r / (k : ℚ)).foldl max 0 * 30) ∧
      ((W.map fun r => max 0 r / (k : ℚ)).foldl max 0 * 30 = 0 ∨
        ∃ r ∈ W, (W.map fun r => max 0 r / (k : ℚ)).foldl max 0 * 30 = r / k * 30) := by
    intro W
    obtain ⟨m1, m2, m3⟩ := foldl_max (W.map fun r => max 0 r / (k : ℚ)) 0
    refine ⟨by linarith, ?_, ?_⟩
    · intro r hr
      have h1 := m2 _ (List.mem_map_of_mem hr)
      have h2 : r / k ≤ max 0 r / k := (div_le_div_iff_of_pos_right hk').2 (le_max_right _ _)
      linarith
    · rcases m3 with m3 | m3
      · left; rw [m3]; ring
      · obtain ⟨r, hr, he⟩ := List.mem_map.1 m3
        rcases le_total 0 r with h | h
        · right; exact ⟨r, hr, by rw [← he, max_eq_right h]⟩
        · left; rw [← he, max_eq_left h]; ring
  refine ⟨rfl, rfl, key E, ?_⟩
  have h := key (L.map fun r => -r)
  rw [List.map_map] at h
  obtain ⟨h1, h2, h3⟩ := h
  refine ⟨h1, fun r hr => h2 (-r) (List.mem_map_of_mem hr), ?_⟩
  rcases h3 with h3 | ⟨r, hr, h3⟩
  · left; exact h3
  · obtain ⟨r', hr', rfl⟩ := List.mem_map.1 hr
    right; exact ⟨r', hr', h3⟩

/-- C67, violated: if the growing season has no steps before (after) its middle, the mean rising (falling) rate is 0/0,
which is then converted to an integer. -/
theorem c67_rates_violated (th : Th) (k θ : Int) (t0 : Nat → Int) (ns : Nat) (l : List Pt) (hk : 1 ≤ k)
    (hs : l.Pairwise fun a b => a.season ≤ b.season) (s : Nat) (hns : s < ns) (hT : 0 < total s l) :
    ∃ y m, (seriesMetrics th k θ t0 ns l)[s]? = some (y, m) ∧
      ((∀ q, ¬ Within l s th.start th.mid q) → m.rar = none) ∧
      ((∀ q, ¬ Within l s th.mid th.stop q) → m.raf = none) := by
  refine ⟨_, _, seriesMetrics_get th k θ t0 ns l hs s hns, ?_⟩
  simp only [seasonMetrics]
  rw [scan_rate th k hk s l hs hT]
  simp only
  have key : ∀ a b : ℚ, (∀ q, ¬ Within l s a b q) → windowRises s (total s l) a b 0 none l = [] := by
    intro a b hw
    have h1 := (window_eq (all := l) a b hT l [] none).2
    rw [total_nil] at h1
    simp only [Option.map_none] at h1
    rw [← h1, List.map_eq_nil_iff, List.filter_eq_nil_iff]
    intro c hc hin
    simp only [inWindow, Bool.and_eq_true] at hin
    have hmem : c.cur ∈ steps s (annot (withShare l) [] l) := by
      rw [← ctxs_cur none (annot (withShare l) [] l), ← ofSeason_cur]
      exact List.mem_map_of_mem hc
    obtain ⟨p, hp, -⟩ := within_iff (th := ⟨a, 0, b⟩) hT hmem hin.1 hin.2
    exact hw p hp
  constructor
  · intro hw; rw [key _ _ hw]; rfl
  · intro hw; rw [key _ _ hw]; rfl

/-- C67, violated: without the adaptive start of the year, the shift of the start (DPV) is not 0 but minus the date of
the start of the year. -/
theorem c67_shift_violated (f d : ℚ → ℚ) (nodata yearMin k θ : Int) (th : Th) (ny : Nat) (l : List Step)
    (ms : List (Nat × Metrics)) (h : polarPixel f d nodata yearMin k θ th ny l = some ms) (hθ : 0 < θ) :
    ∀ (s : Nat) y m, ms[s]? = some (y, m) → m.dpy = 365 * s + θ ∧ m.dpv = -(365 * s + θ) ∧ m.dpv ≠ 0 := by
  unfold polarPixel at h
  obtain ⟨pts, -, rfl⟩ := Option.map_eq_some_iff.1 h
  have key : ∀ (n s0 : Nat) (L : List Ctx) (i y : Nat) m,
      (seasonLoop th k θ (fun _ => 0) n s0 L)[i]? = some (y, m) →
      m.dpy = 365 * ((s0 + i : Nat) : Int) + θ ∧ m.dpv = -(365 * ((s0 + i : Nat) : Int) + θ) := by
    intro n
    induction n with
    | zero => intro s0 L i y m h; simp [seasonLoop] at h
    | succ n ih =>
      intro s0 L i y m h
      cases i with
      | zero =>
        simp only [seasonLoop, List.getElem?_cons_zero, Option.some.injEq, Prod.mk.injEq] at h
        rw [← h.2]
        simp only [seasonMetrics, doy2ce, Nat.add_zero]
        omega
      | succ i =>
        simp only [seasonLoop, List.getElem?_cons_succ] at h
        have := ih (s0 + 1) _ i y m h
        rw [show s0 + (i + 1) = s0 + 1 + i by omega]
        exact this
  intro s y m hm
  have := key (ny - 1) 0 _ s y m hm
  simp only [Nat.zero_add] at this
  omega

/-- The hypotheses of the theorems on the rates hold for `demo`. -/
example : windowRises 0 (total 0 demo) (1/5) (1/2) 0 none demo = [10] ∧
    windowRises 0 (total 0 demo) (1/2) (9/10) 0 none demo = [30] ∧
    (seriesMetrics ⟨1/5, 1/2, 9/10⟩ 50 90 (fun _ => 0) 2 demo).map
      (fun x => (x.2.ibt * 365, x.2.vbl, x.2.rar, x.2.raf, x.2.irr * 30, x.2.ifr * 30)) =
      [(5000, 15/2, some 6, some 0, 2000, 2500), (250, 5/2, none, none, 250, 250)] := by
  decide +kernel

/-- C67, violated: the rising and falling integrals of a season with values between 0 and 10000 need not fit 16 bits,
so that the conversion is undefined. -/
theorem c67_overflow_violated : ∃ (l : List Pt), l.Pairwise (fun a b => a.season ≤ b.season) ∧
    (∀ p ∈ l, 0 ≤ p.val ∧ p.val ≤ 10000) ∧
    ∃ y m, (seriesMetrics ⟨1/5, 1/2, 4/5⟩ 16 1 (fun _ => 0) 1 l)[0]? = some (y, m) ∧
      shortOfQ m.irr = none ∧ shortOfQ m.ifr = none :=
  ⟨(List.range 23).map fun i => ⟨if i % 2 = 0 then 0 else 10000, none, 1 + 16 * (i : Int), 0⟩, by decide +kernel,
    by decide +kernel, _, _, rfl, by decide +kernel, by decide +kernel⟩

end Verif.Polar
