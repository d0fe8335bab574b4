import Mathlib.Data.List.Nodup
import Mathlib.Tactic.Linarith
import Mathlib.Tactic.Ring
import Mathlib.Tactic.FieldSimp
import Mathlib.Tactic.LinearCombination
import Verif.Pac.Spec
import Verif.Stats.Props

/-!
# Targets of phenology-adaptive compositing (C257) -/

namespace Verif.Pac
open Verif.Str (Out)
open Verif.Stats.Spec (sse mean moment comoment)
open Spec

theorem date_eq (p : Par) (yr d v : Int) (hy : 1 ≤ yr) (hn : p.nodata < 0) :
    date p yr d = some v ↔ d ≠ p.nodata ∧ v = p.start + d - 1 ∧ 365 * (yr - 1) < v ∧ v ≤ 365 * (yr + 2) := by
  have key : ∀ w : Int, (Date.ce2year w < yr - 1 ∨ Date.ce2year w > yr + 1) ↔ ¬ (365 * (yr - 1) < w ∧ w ≤ 365 * (yr + 2)) := by
    intro w
    simp only [Date.ce2year]
    split <;> omega
  unfold date
  simp only
  by_cases hd : d = p.nodata
  · rw [if_pos hd]
    simp only [hd, ite_self, if_true, reduceCtorEq, ne_eq, not_true, false_and]
  · rw [if_neg hd]
    by_cases hw : 365 * (yr - 1) < d + p.start - 1 ∧ d + p.start - 1 ≤ 365 * (yr + 2)
    · have hk := fun h => (key _).1 h hw
      rw [if_neg hk, if_neg (by omega), Option.some.injEq]
      constructor
      · rintro rfl; exact ⟨hd, by omega, by omega, by omega⟩
      · rintro ⟨-, h, -⟩; omega
    · rw [if_pos ((key _).2 hw), if_pos rfl]
      constructor
      · intro h; cases h
      · rintro ⟨-, rfl, h1, h2⟩
        exact absurd ⟨by omega, by omega⟩ hw

/-- The dates that are used. -/
def observed (p : Par) (dat : List Int) : List (Int × Int) := (dates p dat).filterMap fun x => x.2.map fun v => (x.1, v)

theorem points_eq (p : Par) (dat : List Int) : points (dates p dat) = rat (observed p dat) := by
  unfold points observed rat
  rw [List.map_filterMap]
  congr 1
  funext x
  obtain ⟨a, b⟩ := x
  cases b <;> rfl

theorem dates_get (p : Par) (dat : List Int) (k : Nat) :
    (dates p dat)[k]? = (dat[k]?).map fun d => (p.y0 + k, date p (p.y0 + k) d) := by
  unfold dates
  rw [List.getElem?_map, List.getElem?_zipIdx, Option.map_map]
  cases dat[k]? with
  | none => rfl
  | some d => simp

theorem mem_observed (p : Par) (dat : List Int) (hy : 1 ≤ p.y0) (hn : p.nodata < 0) (yr v : Int) :
    (yr, v) ∈ observed p dat ↔ Observed p dat yr v := by
  unfold observed Observed
  rw [List.mem_filterMap]
  constructor
  · rintro ⟨⟨a, b⟩, hm, he⟩
    obtain ⟨k, hk⟩ := List.mem_iff_getElem?.1 hm
    rw [dates_get, Option.map_eq_some_iff] at hk
    obtain ⟨d, h1, h2⟩ := hk
    rw [Option.map_eq_some_iff] at he
    obtain ⟨w, h3, h4⟩ := he
    simp only [Prod.mk.injEq] at h2 h4 h3
    obtain ⟨h4, rfl⟩ := h4
    rw [← h2.2] at h3
    obtain ⟨e1, e2, e3, e4⟩ := (date_eq p _ d w (by omega) hn).1 h3
    exact ⟨k, d, h1, by omega, e1, e2, by omega, by omega⟩
  · rintro ⟨k, d, h1, rfl, h3, h4, h5, h6⟩
    refine ⟨(p.y0 + k, date p (p.y0 + k) d), List.mem_iff_getElem?.2 ⟨k, by rw [dates_get, h1]; rfl⟩, ?_⟩
    rw [(date_eq p _ d v (by omega) hn).2 ⟨h3, h4, h5, h6⟩]
    rfl

theorem years_nodup (p : Par) (dat : List Int) : ((observed p dat).map Prod.fst).Nodup := by
  have h1 : ((dates p dat).map Prod.fst).Nodup := by
    unfold dates
    rw [List.map_map]
    have : (Prod.fst ∘ fun x : Int × Nat => (p.y0 + (x.2 : Int), date p (p.y0 + x.2) x.1)) =
        (fun n : Nat => p.y0 + (n : Int)) ∘ Prod.snd := rfl
    rw [this, ← List.map_map, List.zipIdx_map_snd]
    apply List.Nodup.map
    · intro a b h
      simp only at h
      omega
    · exact List.nodup_range' (h := by decide)
  have h2 : List.Sublist ((observed p dat).map Prod.fst) ((dates p dat).map Prod.fst) := by
    unfold observed
    generalize dates p dat = l
    induction l with
    | nil => exact List.Sublist.slnil
    | cons x l ih =>
      obtain ⟨a, b⟩ := x
      cases b with
      | none =>
        rw [List.filterMap_cons_none (by rfl), List.map_cons]
        exact List.Sublist.cons _ ih
      | some v =>
        rw [List.filterMap_cons_some (b := (a, v)) (by rfl), List.map_cons, List.map_cons]
        exact List.Sublist.cons_cons _ ih
  exact h2.nodup h1

theorem observed_nodup (p : Par) (dat : List Int) : (observed p dat).Nodup := List.Nodup.of_map _ (years_nodup p dat)

theorem observed_unique (p : Par) (dat : List Int) (yr v w : Int) (h1 : (yr, v) ∈ observed p dat)
    (h2 : (yr, w) ∈ observed p dat) : v = w := by
  have := List.inj_on_of_nodup_map (years_nodup p dat) h1 h2 rfl
  exact (Prod.mk.inj this).2

theorem count_eq (l : List (ℚ × ℚ)) (hl : l ≠ []) : (Stats.covarLoop l (0, ⟨0, 0, 0, 0, 0⟩)).1 = l.length := by
  rw [Stats.c36_covariance_full l hl]

theorem moment_pos (obs : List (Int × Int)) (h2 : 2 ≤ obs.length) (hn : (obs.map Prod.fst).Nodup) :
    moment 2 ((rat obs).map Prod.fst) ≠ 0 := by
  intro h
  have hall : ∀ x ∈ (rat obs).map Prod.fst, x = mean ((rat obs).map Prod.fst) := by
    intro x hx
    unfold moment at h
    have hz : ∀ (l : List ℚ), (∀ y ∈ l, 0 ≤ y) → l.sum = 0 → ∀ y ∈ l, y = 0 := by
      intro l
      induction l with
      | nil => simp
      | cons a l ih =>
        intro hp hs y hy
        rw [List.sum_cons] at hs
        have ha := hp a List.mem_cons_self
        have hls : 0 ≤ l.sum := List.sum_nonneg fun z hz => hp z (List.mem_cons_of_mem _ hz)
        rcases List.mem_cons.1 hy with rfl | hy
        · linarith
        · exact ih (fun z hz => hp z (List.mem_cons_of_mem _ hz)) (by linarith) y hy
    have := hz _ (by
      intro y hy
      obtain ⟨z, -, rfl⟩ := List.mem_map.1 hy
      positivity) h ((x - mean ((rat obs).map Prod.fst)) ^ 2) (List.mem_map.2 ⟨x, hx, rfl⟩)
    have := pow_eq_zero_iff (two_ne_zero) |>.1 this
    linarith
  match obs, h2, hn, hall with
  | q :: r :: l, _, hn, hall =>
    have a := hall (q.1 : ℚ) (by simp [rat])
    have b := hall (r.1 : ℚ) (by simp [rat])
    have : (q.1 : ℚ) = r.1 := a.trans b.symm
    have : q.1 = r.1 := by exact_mod_cast this
    rw [List.map_cons, List.map_cons, List.nodup_cons] at hn
    exact hn.1 (by rw [this]; exact List.mem_cons_self)

theorem line_spec (prev : Option (ℚ × ℚ)) (obs : List (Int × Int)) (h1 : obs ≠ []) (hn : (obs.map Prod.fst).Nodup) :
    ∃ a b, line prev (rat obs) = some (b, a) ∧ IsLine obs a b := by
  have hne : rat obs ≠ [] := by unfold rat; simpa using h1
  have hlen : (rat obs).length = obs.length := by unfold rat; rw [List.length_map]
  unfold line
  simp only
  rw [count_eq _ hne, hlen]
  have hpos : 0 < obs.length := List.length_pos_iff.2 h1
  by_cases h2 : obs.length > 1
  · rw [if_pos h2]
    have hm := moment_pos obs h2 hn
    have e := Stats.coefs_eq (rat obs) (by omega) hm
    have l := Stats.c51_least_squares (rat obs) (by omega) hm
    simp only at e l
    rw [e] at l
    refine ⟨_, _, ?_, fun _ a' b' => l a' b', fun h => by omega⟩
    rw [Stats.c36_covariance_full _ hne]
    rfl
  · have h3 : obs.length = 1 := by omega
    rw [if_neg h2, if_pos h3]
    obtain ⟨q, rfl⟩ := List.length_eq_one_iff.1 h3
    refine ⟨_, _, rfl, fun h => by omega, fun _ => ⟨rfl, ?_⟩⟩
    intro r hr
    rw [List.mem_singleton] at hr
    subst hr
    rw [Stats.c36_covariance_full _ hne]
    simp [rat, mean]
    ring

theorem poor_spec (thr a b : ℚ) (obs : List (Int × Int)) (h1 : obs ≠ []) :
    poor thr (some (b, a)) (rat obs) = true ↔ obs.length * thr ^ 2 < sse (rat obs) a b := by
  have hlen : (rat obs).length = obs.length := by unfold rat; rw [List.length_map]
  have hpos : 0 < obs.length := List.length_pos_iff.2 h1
  have hq : (0 : ℚ) < obs.length := by exact_mod_cast hpos
  have e : ((rat obs).map fun q => (q.2 - Stats.linregPredict q.1 b a) * (q.2 - Stats.linregPredict q.1 b a)).sum =
      sse (rat obs) a b := by
    unfold sse Stats.linregPredict
    congr 1
    apply List.map_congr_left
    intro q _
    ring
  unfold poor
  simp only
  rw [e, decide_eq_true_eq, hlen]
  constructor
  · rintro ⟨-, h⟩
    have := (lt_div_iff₀ hq).1 h
    linarith
  · intro h
    exact ⟨by omega, (lt_div_iff₀ hq).2 (by linarith)⟩

theorem predict_spec (rf : ℚ → ℚ) (a b : ℚ) (yr : Int) : predict rf (some (b, a)) yr = .ok (rf (clip (a + b * (yr : ℚ)))) := by
  unfold predict clip Stats.linregPredict
  simp only
  by_cases h : 0 ≤ a + b * (yr : ℚ) ∧ a + b * (yr : ℚ) ≤ 2147483647
  · rw [if_pos h, if_neg (by rintro (h' | h') <;> linarith [h.1, h.2])]
  · rw [if_neg h, if_pos (by
      by_contra hc
      rw [not_or, not_lt, gt_iff_lt, not_lt] at hc
      exact h hc)]

theorem all_ok {α β : Type} (f : α → Out β) (g : α → β) (l : List α) (h : ∀ x ∈ l, f x = .ok (g x)) : all f l = .ok (l.map g) := by
  induction l with
  | nil => rfl
  | cons x l ih =>
    rw [all, h x List.mem_cons_self, ih fun y hy => h y (List.mem_cons_of_mem _ hy)]
    rfl

/-- The repaired value of a year. -/
def val (rf : ℚ → ℚ) (a b : ℚ) (bad : Bool) (x : Int × Option Int) : ℚ :=
  match x.2, bad with
  | some v, false => (v : ℚ)
  | _, _ => rf (clip (a + b * (x.1 : ℚ)))

/-- One feature, if there is a line. -/
theorem feature_ok (rf : ℚ → ℚ) (p : Par) (hy : 1 ≤ p.y0) (hn : p.nodata < 0) (prev : Option (ℚ × ℚ)) (dat : List Int)
    (a b : ℚ) (hl : line prev (rat (observed p dat)) = some (b, a)) :
    ∃ t, feature rf p prev dat = .ok (t, some (b, a)) ∧ t.length = p.yn ∧
      (∀ (y : Nat) v, y < p.yn → (p.y1 + y, v) ∈ observed p dat → poor p.thr (some (b, a)) (rat (observed p dat)) = false →
        t[y]? = some (v : ℚ)) ∧
      ∀ y : Nat, y < p.yn → (∀ v, (p.y1 + (y : Int), v) ∉ observed p dat) ∨
          poor p.thr (some (b, a)) (rat (observed p dat)) = true →
        t[y]? = some (rf (clip (a + b * ((p.y1 + y : Int) : ℚ)))) := by
  generalize hbad : poor p.thr (some (b, a)) (rat (observed p dat)) = bad
  have hrep : ∀ x ∈ dates p dat, repair rf (some (b, a)) bad x = .ok (val rf a b bad x) := by
    rintro ⟨yr, o⟩ -
    unfold repair
    cases o with
    | none => cases bad <;> exact predict_spec rf a b yr
    | some v =>
      cases bad
      · rfl
      · exact predict_spec rf a b yr
  let res : Nat → ℚ := fun y =>
    if p.y1 + (y : Int) < p.y0 ∨ p.y1 + (y : Int) ≥ p.y0 + dat.length then rf (clip (a + b * ((p.y1 + y : Int) : ℚ)))
    else (((dates p dat).map (val rf a b bad))[(y + (p.y1 - p.y0)).toNat]?).getD 0
  have hlen : (dates p dat).length = dat.length := by unfold dates; rw [List.length_map, List.length_zipIdx]
  refine ⟨(List.range p.yn).map res, ?_, by simp, ?_, ?_⟩
  · unfold feature
    simp only
    rw [points_eq, hl, hbad, all_ok _ (val rf a b bad) _ hrep]
    show Out.bind (all _ (List.range p.yn)) _ = _
    rw [all_ok _ res]
    · rfl
    · intro y _
      by_cases hc : p.y1 + (y : Int) < p.y0 ∨ p.y1 + (y : Int) ≥ p.y0 + dat.length
      · simp only [res]
        rw [if_pos hc, if_pos hc, predict_spec]
      · simp only [res]
        rw [if_neg hc, if_neg hc]
        have hi : (y + (p.y1 - p.y0)).toNat < ((dates p dat).map (val rf a b bad)).length := by
          rw [List.length_map, hlen]; omega
        rw [List.getElem?_eq_getElem hi]
        rfl
  · intro y v hlt hm hb
    rw [List.getElem?_map, List.getElem?_range hlt]
    obtain ⟨k, d, h1, h2, h3, h4, h5, h6⟩ := (mem_observed p dat hy hn _ _).1 hm
    have hk : k < dat.length := (List.getElem?_eq_some_iff.1 h1).1
    show some (res y) = some (v : ℚ)
    simp only [res]
    rw [if_neg (by omega), show (y + (p.y1 - p.y0)).toNat = k by omega, List.getElem?_map, dates_get, h1]
    subst hb
    rw [Option.map_some, Option.map_some, Option.getD_some, (date_eq p _ d v (by omega) hn).2 ⟨h3, h4, by omega, by omega⟩]
    rfl
  · intro y hlt hor
    rw [List.getElem?_map, List.getElem?_range hlt]
    show some (res y) = _
    simp only [res]
    by_cases hc : p.y1 + (y : Int) < p.y0 ∨ p.y1 + (y : Int) ≥ p.y0 + dat.length
    · rw [if_pos hc]
    · rw [if_neg hc, List.getElem?_map, dates_get]
      have hi : (y + (p.y1 - p.y0)).toNat < dat.length := by omega
      have hyr : p.y0 + ((y + (p.y1 - p.y0)).toNat : Int) = p.y1 + y := by omega
      rw [List.getElem?_eq_getElem hi, Option.map_some, Option.map_some, Option.getD_some, hyr]
      simp only [val]
      cases ho : date p (p.y1 + y) dat[(y + (p.y1 - p.y0)).toNat] with
      | none => cases bad <;> rfl
      | some v =>
        cases hbad' : bad with
        | true => rfl
        | false =>
          exfalso
          rcases hor with h | h
          · apply h v
            rw [mem_observed p dat hy hn]
            obtain ⟨e1, e2, e3, e4⟩ := (date_eq p _ _ v (by omega) hn).1 ho
            exact ⟨_, _, List.getElem?_eq_getElem hi, hyr.symm, e1, e2, e3, e4⟩
          · rw [hbad'] at h; cases h

/-- A feature with at least one date. -/
theorem feature_good (rf : ℚ → ℚ) (p : Par) (hy : 1 ≤ p.y0) (hn : p.nodata < 0) (prev : Option (ℚ × ℚ)) (dat : List Int)
    (hex : ∃ yr v, Observed p dat yr v) :
    ∃ t a b, feature rf p prev dat = .ok (t, some (b, a)) ∧ IsLine (observed p dat) a b ∧ Good rf p dat t := by
  obtain ⟨yr, v, ho⟩ := hex
  have hne : observed p dat ≠ [] := List.ne_nil_of_mem ((mem_observed p dat hy hn yr v).2 ho)
  obtain ⟨a, b, hl, hline⟩ := line_spec prev _ hne (years_nodup p dat)
  obtain ⟨t, h1, h2, h3, h4⟩ := feature_ok rf p hy hn prev dat a b hl
  refine ⟨t, a, b, h1, hline, h2, observed p dat, observed_nodup p dat, mem_observed p dat hy hn, a, b, hline, ?_, ?_⟩
  · intro y v hlt hm hs
    apply h3 y v hlt hm
    by_contra hc
    have := (poor_spec p.thr a b _ hne).1 (by simpa using hc)
    linarith
  · intro y hlt hor
    exact h4 y hlt (hor.imp id (poor_spec p.thr a b _ hne).2)

/-- C257, partial: if all features have a plausible date in at least one year, every target of a pixel is the date of its
feature in that year if there is one and the dates are close to a line; otherwise it is on the line of best fit through
the dates of the feature (through the same day of the year if there is only one date). Missing: features without any
date. -/
theorem c257_targets_partial (rf : ℚ → ℚ) (p : Par) (hy : 1 ≤ p.y0) (hn : p.nodata < 0) (features : List (List Int))
    (hex : ∀ dat ∈ features, ∃ yr v, Observed p dat yr v) :
    ∃ ts, targets rf p none features = .ok ts ∧ List.Forall₂ (Good rf p) features ts := by
  generalize (none : Option (ℚ × ℚ)) = prev
  induction features generalizing prev with
  | nil => exact ⟨[], rfl, List.Forall₂.nil⟩
  | cons dat rest ih =>
    obtain ⟨t, a, b, h1, -, h2⟩ := feature_good rf p hy hn prev dat (hex dat List.mem_cons_self)
    obtain ⟨ts, h3, h4⟩ := ih (fun d hd => hex d (List.mem_cons_of_mem _ hd)) (some (b, a))
    refine ⟨t :: ts, ?_, List.Forall₂.cons h2 h4⟩
    rw [targets, h1]
    show Out.bind (targets rf p (some (b, a)) rest) _ = _
    rw [h3]
    rfl

theorem observed_nil (p : Par) (hy : 1 ≤ p.y0) (hn : p.nodata < 0) (dat : List Int) (hno : ∀ yr v, ¬ Observed p dat yr v) :
    observed p dat = [] :=
  List.eq_nil_iff_forall_not_mem.2 fun q hq => hno q.1 q.2 ((mem_observed p dat hy hn _ _).1 hq)

/-- C257, violated: if the first feature has no plausible date in any year (a pixel without phenology), the targets are
computed from variables that have no value. -/
theorem c257_first_violated (rf : ℚ → ℚ) (p : Par) (hy : 1 ≤ p.y0) (hn : p.nodata < 0) (dat : List Int) (hd : dat ≠ [])
    (hno : ∀ yr v, ¬ Observed p dat yr v) (rest : List (List Int)) : targets rf p none (dat :: rest) = .ub := by
  have h0 := observed_nil p hy hn dat hno
  rw [targets]
  have : feature rf p none dat = .ub := by
    unfold feature
    simp only
    rw [points_eq, h0]
    have hl : line none (rat []) = none := rfl
    rw [hl]
    obtain ⟨d, l, rfl⟩ := List.exists_cons_of_ne_nil hd
    have e : dates p (d :: l) = (p.y0, none) :: (dates p (d :: l)).tail := by
      have g := dates_get p (d :: l) 0
      have : date p (p.y0 + (0 : Nat)) d = none := by
        cases hdv : date p (p.y0 + (0 : Nat)) d with
        | none => rfl
        | some v =>
          exfalso
          obtain ⟨e1, e2, e3, e4⟩ := (date_eq p _ d v (by omega) hn).1 hdv
          exact hno _ _ ⟨0, d, rfl, rfl, e1, e2, e3, e4⟩
      rw [List.getElem?_cons_zero, Option.map_some, this] at g
      cases hx : dates p (d :: l) with
      | nil => rw [hx] at g; cases g
      | cons x xs =>
        rw [hx, List.getElem?_cons_zero, Option.some.injEq] at g
        rw [List.tail_cons, g]
        simp
    rw [e, all]
    rfl
  rw [this]
  rfl

/-- C257, violated: if a later feature has no plausible date in any year, its targets are on the line of the feature before
it, which is about another phenological event. -/
theorem c257_stale_violated (rf : ℚ → ℚ) (p : Par) (hy : 1 ≤ p.y0) (hn : p.nodata < 0) (dat dat' : List Int)
    (hex : ∃ yr v, Observed p dat yr v) (hno : ∀ yr v, ¬ Observed p dat' yr v) :
    ∃ t t', targets rf p none [dat, dat'] = .ok [t, t'] ∧ Good rf p dat t ∧
      ∃ obs : List (Int × Int), obs.Nodup ∧ (∀ yr v, (yr, v) ∈ obs ↔ Observed p dat yr v) ∧
        ∃ a b, IsLine obs a b ∧ ∀ y : Nat, y < p.yn → t'[y]? = some (rf (clip (a + b * ((p.y1 + y : Int) : ℚ)))) := by
  obtain ⟨t, a, b, h1, hl, h2⟩ := feature_good rf p hy hn none dat hex
  have h0 := observed_nil p hy hn dat' hno
  obtain ⟨t', k1, k2, -, k4⟩ := feature_ok rf p hy hn (some (b, a)) dat' a b (by rw [h0]; rfl)
  refine ⟨t, t', ?_, h2, observed p dat, observed_nodup p dat, mem_observed p dat hy hn, a, b, hl, ?_⟩
  · rw [targets, h1]
    show Out.bind (Out.bind (feature rf p (some (b, a)) dat') _) _ = _
    rw [k1]
    rfl
  · intro y hlt
    exact k4 y hlt (Or.inl fun v => by rw [h0]; simp)

/-- A pixel from 2000 on: dates in 2000 and 2002. -/
def ex : Par := ⟨2000, 730001, 20, 1999, 5, -9999⟩

example : 1 ≤ ex.y0 ∧ ex.nodata < 0 ∧ Observed ex [100, -9999, 840] 2000 730100 ∧ Observed ex [100, -9999, 840] 2002 730840 ∧
    ∀ yr v, ¬ Observed ex [-9999, -9999] yr v := by
  refine ⟨by decide, by decide, ⟨0, 100, rfl, by decide, by decide, by decide, by decide, by decide⟩,
    ⟨2, 840, rfl, by decide, by decide, by decide, by decide, by decide⟩, ?_⟩
  rintro yr v ⟨k, d, h, -, h2, -⟩
  have : d = -9999 := by
    have := List.mem_of_getElem? h
    simpa using this
  exact h2 this

end Verif.Pac
