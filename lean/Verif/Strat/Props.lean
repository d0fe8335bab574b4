import Mathlib.Data.List.Nodup
import Mathlib.Tactic.Linarith
import Mathlib.Tactic.FieldSimp
import Mathlib.Tactic.Ring
import Mathlib.Tactic.ByContra
import Verif.Strat.Spec

/-!
# Theorems on the stratified sampling (C59)
-/

namespace Verif.Strat

open Verif.Str (Out)
open Spec

/-! ## The row that is removed -/

/-- A row that can be removed. -/
def Sel (c : Int) (r : Pix × Bool) : Prop := r.1.cls = c ∧ r.2 = true

theorem fold_max (c : Int) : ∀ (l : List (Pix × Bool)) (k : Nat) (st : ℚ × Nat),
    ((l.zipIdx k).foldl (maxStep c) st = st ∧ ∀ r ∈ l, Sel c r → r.1.rnd ≤ st.1) ∨
    ∃ i p, l[i]? = some (p, true) ∧ p.cls = c ∧ (l.zipIdx k).foldl (maxStep c) st = (p.rnd, k + i) ∧ st.1 < p.rnd ∧
      ∀ r ∈ l, Sel c r → r.1.rnd ≤ p.rnd
  | [], k, st => .inl ⟨rfl, by simp⟩
  | r :: l, k, st => by
    rw [List.zipIdx_cons, List.foldl_cons]
    by_cases hs : Sel c r ∧ st.1 < r.1.rnd
    · have e : maxStep c st (r, k) = (r.1.rnd, k) := by
        unfold maxStep
        simp [hs.1.1, hs.1.2, hs.2]
      rw [e]
      right
      rcases fold_max c l (k + 1) (r.1.rnd, k) with ⟨h1, h2⟩ | ⟨i, p, h1, h2, h3, h4, h5⟩
      · refine ⟨0, r.1, ?_, hs.1.1, by rw [h1]; rfl, hs.2, ?_⟩
        · rw [← hs.1.2]; rfl
        · intro x hx hsx
          rcases List.mem_cons.1 hx with rfl | hx
          · exact le_refl _
          · exact h2 x hx hsx
      · refine ⟨i + 1, p, by simpa using h1, h2, by rw [h3]; congr 1; omega, by simp only at h4; linarith [hs.2], ?_⟩
        intro x hx hsx
        rcases List.mem_cons.1 hx with rfl | hx
        · exact h4.le
        · exact h5 x hx hsx
    · have e : maxStep c st (r, k) = st := by
        unfold maxStep
        by_cases h1 : r.1.cls ≠ c
        · rw [if_pos h1]
        · rw [if_neg h1]
          by_cases h2 : r.2 = true
          · have : ¬ r.1.rnd > st.1 := fun h => hs ⟨⟨not_not.1 h1, h2⟩, h⟩
            simp [h2, this]
          · simp [h2]
      rw [e]
      have hle : Sel c r → r.1.rnd ≤ st.1 := fun h => not_lt.1 fun h' => hs ⟨h, h'⟩
      rcases fold_max c l (k + 1) st with ⟨h1, h2⟩ | ⟨i, p, h1, h2, h3, h4, h5⟩
      · left
        refine ⟨h1, ?_⟩
        intro x hx hsx
        rcases List.mem_cons.1 hx with rfl | hx
        · exact hle hsx
        · exact h2 x hx hsx
      · right
        refine ⟨i + 1, p, by simpa using h1, h2, by rw [h3]; congr 1; omega, h4, ?_⟩
        intro x hx hsx
        rcases List.mem_cons.1 hx with rfl | hx
        · exact (hle hsx).trans h4.le
        · exact h5 x hx hsx

/-- Number of rows of class `c` that are still selected. -/
def cnt (c : Int) (rows : List Pix) (mask : List Bool) : Nat :=
  ((rows.zip mask).filter fun r => decide (r.1.cls = c) && r.2).length

/-- If a row can be removed, the one with the largest random number is. -/
theorem rowMax_spec (c : Int) (rows : List Pix) (mask : List Bool) (hr : ∀ p ∈ rows, -1 < p.rnd)
    (h : 0 < cnt c rows mask) :
    ∃ p, rows[rowMax c rows mask]? = some p ∧ mask[rowMax c rows mask]? = some true ∧ p.cls = c ∧
      ∀ (k : Nat) (q : Pix), rows[k]? = some q → mask[k]? = some true → q.cls = c → q.rnd ≤ p.rnd := by
  unfold cnt at h
  obtain ⟨r, hrm⟩ := List.exists_mem_of_length_pos h
  have hr' := List.mem_filter.1 hrm
  have hsel : Sel c r := by simpa [Sel] using hr'.2
  have hin : r.1 ∈ rows := (List.of_mem_zip (a := r.1) (b := r.2) hr'.1).1
  rcases fold_max c (rows.zip mask) 0 (-1, 0) with ⟨-, h2⟩ | ⟨i, p, h1, h2, h3, -, h5⟩
  · exact absurd (h2 r hr'.1 hsel) (not_le.2 (hr _ hin))
  · have e : rowMax c rows mask = i := by unfold rowMax; rw [h3]; simp
    rw [e]
    obtain ⟨a, b⟩ := List.getElem?_zip_eq_some.1 h1
    refine ⟨p, a, b, h2, ?_⟩
    intro k q hk hm hc
    have : (q, true) ∈ rows.zip mask := List.mem_of_getElem? (List.getElem?_zip_eq_some.2 ⟨hk, hm⟩)
    exact h5 (q, true) this ⟨hc, rfl⟩

/-- If no row of the class is left, the first row of the table is removed. -/
theorem rowMax_none (c : Int) (rows : List Pix) (mask : List Bool) (h : cnt c rows mask = 0) :
    rowMax c rows mask = 0 := by
  rcases fold_max c (rows.zip mask) 0 (-1, 0) with ⟨h1, -⟩ | ⟨i, p, h1, h2, -⟩
  · unfold rowMax; rw [h1]
  · exfalso
    unfold cnt at h
    rw [List.length_eq_zero_iff, List.filter_eq_nil_iff] at h
    exact h (p, true) (List.mem_of_getElem? h1) (by simp [h2])

theorem cnt_set (c : Int) : ∀ (rows : List Pix) (mask : List Bool) (i : Nat) (p : Pix), rows[i]? = some p →
    mask[i]? = some true → p.cls = c → cnt c rows (mask.set i false) + 1 = cnt c rows mask
  | [], _, _, _, h, _, _ => by simp at h
  | _ :: _, [], _, _, _, h, _ => by simp at h
  | q :: rows, m :: mask, 0, p, h, hm, hc => by
    simp only [List.getElem?_cons_zero, Option.some.injEq] at h hm
    subst h; subst hm
    simp [cnt, hc]
  | q :: rows, m :: mask, i + 1, p, h, hm, hc => by
    have ih := cnt_set c rows mask i p (by simpa using h) (by simpa using hm) hc
    unfold cnt at ih ⊢
    rw [List.set_cons_succ, List.zip_cons_cons, List.zip_cons_cons, List.filter_cons, List.filter_cons]
    split
    · rw [List.length_cons, List.length_cons]; omega
    · exact ih

theorem cnt_congr (c : Int) : ∀ (rows : List Pix) (m m' : List Bool), m.length = m'.length →
    (∀ (i : Nat) p, rows[i]? = some p → p.cls = c → m[i]? = m'[i]?) → cnt c rows m = cnt c rows m'
  | [], _, _, _, _ => rfl
  | _ :: _, [], [], _, _ => rfl
  | _ :: _, [], _ :: _, h, _ => by simp at h
  | _ :: _, _ :: _, [], h, _ => by simp at h
  | q :: rows, a :: m, b :: m', hl, h => by
    have ih := cnt_congr c rows m m' (by simpa using hl) (fun i p hp hc => by
      have := h (i + 1) p (by simpa using hp) hc; simpa using this)
    unfold cnt at ih ⊢
    rw [List.zip_cons_cons, List.zip_cons_cons, List.filter_cons, List.filter_cons]
    by_cases hc : q.cls = c
    · have : a = b := by have := h 0 q rfl hc; simpa using this
      subst this
      split
      · rw [List.length_cons, List.length_cons, ih]
      · exact ih
    · simp only [hc, decide_false, Bool.false_and, Bool.false_eq_true, if_false]
      exact ih

/-! ## Thinning -/

/-- Removing `n` samples of a class, if there are so many: those with the largest random numbers are removed, samples
of other classes are not touched. -/
theorem thin_spec (c : Int) (rows : List Pix) (hr : ∀ p ∈ rows, -1 < p.rnd) : ∀ (n : Nat) (mask : List Bool),
    rows.length ≤ mask.length → n ≤ cnt c rows mask →
    ∃ mask', thin c rows n mask = .ok mask' ∧ mask'.length = mask.length ∧ cnt c rows mask' = cnt c rows mask - n ∧
      (∀ (i : Nat) p, rows[i]? = some p → p.cls ≠ c → mask'[i]? = mask[i]?) ∧
      (∀ i : Nat, mask'[i]? = some true → mask[i]? = some true) ∧
      ∀ (i k : Nat) p q, rows[i]? = some p → rows[k]? = some q → p.cls = c → q.cls = c → mask'[i]? = some true →
        mask[k]? = some true → mask'[k]? = some false → p.rnd ≤ q.rnd
  | 0, mask, _, _ => ⟨mask, rfl, rfl, rfl, fun _ _ _ _ => rfl, fun _ h => h, by
      intro i k p q _ _ _ _ _ h1 h2
      rw [h1] at h2; cases h2⟩
  | n + 1, mask, hl, hn => by
    obtain ⟨p0, h1, h2, h3, h4⟩ := rowMax_spec c rows mask hr (by omega)
    generalize hi : rowMax c rows mask = i0 at *
    have hlt : i0 < mask.length := (List.getElem?_eq_some_iff.1 h2).1
    have hc := cnt_set c rows mask i0 p0 h1 h2 h3
    obtain ⟨mask', g1, g2, g3, g4, g5, g6⟩ := thin_spec c rows hr n (mask.set i0 false) (by simpa using hl) (by omega)
    have hset : ∀ i : Nat, (mask.set i0 false)[i]? = if i0 = i then some false else mask[i]? := by
      intro i
      rw [List.getElem?_set]
      split
      · rename_i e; subst e; simp [hlt]
      · rfl
    refine ⟨mask', ?_, by rw [g2]; simp, by rw [g3]; omega, ?_, ?_, ?_⟩
    · rw [thin, hi, if_pos hlt]; exact g1
    · intro i p hp hpc
      rw [g4 i p hp hpc, hset, if_neg]
      rintro rfl
      rw [h1] at hp
      cases hp
      exact hpc h3
    · intro i hm
      have := g5 i hm
      rw [hset] at this
      split at this
      · cases this
      · exact this
    · intro i k p q hp hq hpc hqc hmi hmk hmk'
      by_cases hk : i0 = k
      · subst hk
        rw [h1] at hq
        cases hq
        have := g5 i hmi
        rw [hset] at this
        split at this
        · cases this
        · exact h4 i p hp this hpc
      · exact g6 i k p q hp hq hpc hqc hmi (by rw [hset, if_neg hk]; exact hmk) hmk'

theorem thinAll_spec (tab : List Stratum) (rows counted : List Pix) (hr : ∀ p ∈ rows, -1 < p.rnd) :
    ∀ (l : List Stratum) (mask : List Bool), (l.map (·.cls)).Nodup → rows.length ≤ mask.length →
    (∀ s ∈ l, cnt s.cls rows mask = number s.cls counted) →
    ∃ mask', thinAll tab rows counted l mask = .ok mask' ∧ mask'.length = mask.length ∧
      (∀ (i : Nat) p, rows[i]? = some p → p.cls ∉ l.map (·.cls) → mask'[i]? = mask[i]?) ∧
      (∀ s ∈ l, cnt s.cls rows mask' = min (sizeOf tab s.cls) (number s.cls counted)) ∧
      ∀ s ∈ l, ∀ (i k : Nat) p q, rows[i]? = some p → rows[k]? = some q → p.cls = s.cls → q.cls = s.cls →
        mask'[i]? = some true → mask[k]? = some true → mask'[k]? = some false → p.rnd ≤ q.rnd
  | [], mask, _, _, _ => ⟨mask, rfl, rfl, fun _ _ _ _ => rfl, by simp, by simp⟩
  | s :: l, mask, hnd, hl, hc => by
    rw [List.map_cons, List.nodup_cons] at hnd
    have hcs := hc s List.mem_cons_self
    obtain ⟨m1, a1, a2, a3, a4, -, a6⟩ := thin_spec s.cls rows hr (number s.cls counted - sizeOf tab s.cls) mask hl
      (by omega)
    have hne : ∀ t ∈ l, t.cls ≠ s.cls := fun t ht e => hnd.1 (List.mem_map.2 ⟨t, ht, e⟩)
    obtain ⟨m2, b1, b2, b3, b4, b5⟩ := thinAll_spec tab rows counted hr l m1 hnd.2 (by omega) (fun t ht => by
      rw [cnt_congr t.cls rows m1 mask a2 (fun i p hp hpc => a4 i p hp (by rw [hpc]; exact hne t ht))]
      exact hc t (List.mem_cons_of_mem _ ht))
    refine ⟨m2, ?_, by omega, ?_, ?_, ?_⟩
    · rw [thinAll]
      show Out.bind (thin s.cls rows (number s.cls counted - sizeOf tab s.cls) mask) _ = _
      rw [a1]; exact b1
    · intro i p hp hpc
      rw [List.map_cons, List.mem_cons, not_or] at hpc
      rw [b3 i p hp hpc.2, a4 i p hp hpc.1]
    · intro t ht
      rcases List.mem_cons.1 ht with rfl | ht
      · rw [cnt_congr t.cls rows m2 m1 b2 (fun i p hp hpc => b3 i p hp (by rw [hpc]; exact hnd.1)), a3, hcs]
        omega
      · exact b4 t ht
    · intro t ht i k p q hp hq hpc hqc hmi hmk hmk'
      rcases List.mem_cons.1 ht with rfl | ht
      · rw [b3 i p hp (by rw [hpc]; exact hnd.1)] at hmi
        rw [b3 k q hq (by rw [hqc]; exact hnd.1)] at hmk'
        exact a6 i k p q hp hq hpc hqc hmi hmk hmk'
      · exact b5 t ht i k p q hp hq hpc hqc hmi
          (by rw [a4 k q hq (by rw [hqc]; exact hne t ht)]; exact hmk) hmk'

/-! ## Pre-selection and output -/

theorem entry_some (tab : List Stratum) (h : (tab.map (·.cls)).Nodup) (s : Stratum) (hs : s ∈ tab) :
    entry tab s.cls = some s := by
  unfold entry
  cases e : tab.reverse.find? (fun t => t.cls = s.cls) with
  | none =>
    rw [List.find?_eq_none] at e
    exact absurd (e s (by simpa using hs)) (by simp)
  | some t =>
    have h1 := List.find?_some e
    have h2 := List.mem_of_find?_eq_some e
    have : t = s := List.inj_on_of_nodup_map h (by simpa using h2) hs (by simpa using h1)
    rw [this]

theorem accept_iff (tab : List Stratum) (hg : GoodTab tab) (p : Pix) (hp : 0 < p.rnd) :
    accept tab p.cls p.rnd = true ↔ Chosen tab p := by
  unfold accept
  cases e : entry tab p.cls with
  | none =>
    simp only [decide_eq_true_eq]
    constructor
    · intro h; exact absurd hp (not_lt.2 h)
    · rintro ⟨s, hs, hc, -⟩
      have := entry_some tab hg.1 s hs
      rw [hc, e] at this; cases this
  | some t =>
    unfold entry at e
    have h1 : t.cls = p.cls := by simpa using List.find?_some e
    have h2 : t ∈ tab := by simpa using List.mem_of_find?_eq_some e
    have h3 := hg.2 t h2
    have h3' : (0 : ℚ) < t.count := by exact_mod_cast h3
    simp only [h3.ne', if_false, decide_eq_true_eq]
    have hiff : p.rnd ≤ (t.size : ℚ) / t.count * 2 ↔ p.rnd * t.count ≤ 2 * t.size := by
      rw [div_mul_eq_mul_div, le_div_iff₀ h3', mul_comm (t.size : ℚ) 2]
    rw [hiff]
    constructor
    · intro h; exact ⟨t, h2, h1, h⟩
    · rintro ⟨s, hs, hc, h⟩
      have : s = t := List.inj_on_of_nodup_map hg.1 hs h2 (by rw [hc, h1])
      rw [← this]; exact h

theorem preselect_eq (tab : List Stratum) (hg : GoodTab tab) : ∀ (image : List Pix) (a b : List Pix),
    (∀ p ∈ image, 0 < p.rnd) → a.length + (chosen tab image).length ≤ capacity tab →
    image.foldl (preStep tab) (a, b) = (a ++ chosen tab image, b ++ chosen tab image)
  | [], a, b, _, _ => by simp [chosen]
  | p :: image, a, b, hp, hcap => by
    rw [List.foldl_cons]
    have hiff := accept_iff tab hg p (hp p List.mem_cons_self)
    by_cases h : Chosen tab p
    · have hch : chosen tab (p :: image) = p :: chosen tab image := by simp [chosen, h]
      rw [hch, List.length_cons] at hcap
      have e : preStep tab (a, b) p = (a ++ [p], b ++ [p]) := by
        unfold preStep
        rw [if_pos (hiff.2 h), if_pos (by show a.length < capacity tab; omega)]
      rw [e, preselect_eq tab hg image _ _ (fun q hq => hp q (List.mem_cons_of_mem _ hq))
        (by rw [List.length_append, List.length_singleton]; omega), hch]
      simp
    · have hch : chosen tab (p :: image) = chosen tab image := by simp [chosen, h]
      have e : preStep tab (a, b) p = (a, b) := by
        unfold preStep
        rw [if_neg (fun h' => h (hiff.1 h'))]
      rw [e, preselect_eq tab hg image _ _ (fun q hq => hp q (List.mem_cons_of_mem _ hq)) (by rw [hch] at hcap; exact hcap), hch]

theorem output_cnt (c : Int) : ∀ (rows : List Pix) (mask : List Bool),
    number c (output rows mask) = cnt c rows mask
  | [], _ => by simp [output, number, cnt]
  | _ :: _, [] => by simp [output, number, cnt]
  | p :: rows, m :: mask => by
    have ih := output_cnt c rows mask
    unfold output number cnt at ih ⊢
    rw [List.zip_cons_cons]
    cases m with
    | false => simpa using ih
    | true =>
      by_cases hc : p.cls = c
      · simpa [hc] using ih
      · simpa [hc] using ih

theorem mem_output (rows : List Pix) (mask : List Bool) (p : Pix) :
    p ∈ output rows mask ↔ ∃ i : Nat, rows[i]? = some p ∧ mask[i]? = some true := by
  unfold output
  rw [List.mem_filterMap]
  constructor
  · rintro ⟨r, hr, h⟩
    obtain ⟨i, hi⟩ := List.mem_iff_getElem?.1 hr
    obtain ⟨q, m⟩ := r
    cases m with
    | false => simp at h
    | true =>
      simp only [if_true, Option.some.injEq] at h
      subst h
      exact ⟨i, List.getElem?_zip_eq_some.1 hi⟩
  · rintro ⟨i, h1, h2⟩
    exact ⟨(p, true), List.mem_of_getElem? (List.getElem?_zip_eq_some.2 ⟨h1, h2⟩), rfl⟩

theorem output_sublist : ∀ (rows : List Pix) (mask : List Bool), (output rows mask).Sublist rows
  | [], _ => by simp [output]
  | _ :: _, [] => by simp [output]
  | p :: rows, m :: mask => by
    have ih := output_sublist rows mask
    unfold output at ih ⊢
    rw [List.zip_cons_cons]
    cases m with
    | false => rw [List.filterMap_cons_none (by simp)]; exact ih.cons p
    | true => rw [List.filterMap_cons_some (b := p) (by simp)]; exact ih.cons_cons p

theorem mask0_get (tab : List Stratum) (rows : List Pix) (i : Nat) (h : i < rows.length) :
    (mask0 tab rows)[i]? = some true := by
  unfold mask0
  rw [List.getElem?_append_left (by simpa using h)]
  simp [h]

theorem cnt_mask0 (tab : List Stratum) (c : Int) (rows : List Pix) : cnt c rows (mask0 tab rows) = number c rows := by
  rw [← output_cnt]
  congr 1
  unfold output mask0
  generalize List.replicate (capacity tab - rows.length) false = t
  induction rows with
  | nil => rfl
  | cons p rows ih => simpa using ih

/-- C59: for every image and all positive random numbers, if the table of sample sizes lists each class once and the
pre-selected pixels fit into the sample table, the output consists of pre-selected pixels of the listed classes, no
pixel twice; each class has as many samples as requested, or all its pre-selected pixels if there are fewer; and
those with the smallest random numbers are kept. -/
theorem c59_sizes_partial (tab : List Stratum) (hg : GoodTab tab) (image : List Pix) (hp : ∀ p ∈ image, 0 < p.rnd)
    (hcap : (chosen tab image).length ≤ 10 * (tab.map (·.size)).sum) :
    ∃ out, sample tab image = .ok out ∧ out.Sublist (chosen tab image) ∧
      (∀ s ∈ tab, number s.cls out = min s.size (number s.cls (chosen tab image))) ∧
      ∀ p ∈ out, ∀ q ∈ chosen tab image, q.cls = p.cls → q ∉ out → p.rnd ≤ q.rnd := by
  rw [show 10 * (tab.map (·.size)).sum = capacity tab by rw [capacity, Nat.mul_comm]] at hcap
  have hpre : preselect tab image = (chosen tab image, chosen tab image) := by
    unfold preselect
    rw [preselect_eq tab hg image [] [] hp (by simpa using hcap)]
    simp
  have hr : ∀ p ∈ chosen tab image, -1 < p.rnd := by
    intro p h
    have := hp p (List.mem_filter.1 h).1
    linarith
  obtain ⟨mask, m1, m2, m3, m4, m5⟩ := thinAll_spec tab (chosen tab image) (chosen tab image) hr tab
    (mask0 tab (chosen tab image)) hg.1 (by unfold mask0; simp) (fun s _ => cnt_mask0 tab s.cls _)
  refine ⟨output (chosen tab image) mask, ?_, output_sublist _ _, ?_, ?_⟩
  · unfold sample
    rw [hpre, m1]; rfl
  · intro s hs
    rw [output_cnt, m4 s hs]
    unfold sizeOf
    rw [entry_some tab hg.1 s hs]; rfl
  · intro p hpo q hq hc hqo
    obtain ⟨i, h1, h2⟩ := (mem_output _ _ _).1 hpo
    obtain ⟨k, h3⟩ := List.mem_iff_getElem?.1 hq
    have hk : k < (chosen tab image).length := (List.getElem?_eq_some_iff.1 h3).1
    have hpc : p ∈ chosen tab image := List.mem_of_getElem? h1
    obtain ⟨s, hs, hsc, -⟩ : Chosen tab p := by simpa [chosen] using (List.mem_filter.1 hpc).2
    refine m5 s hs i k p q h1 h3 hsc.symm (by rw [hc, hsc]) h2 (mask0_get tab _ k hk) ?_
    have hlen : k < mask.length := by
      rw [m2]; unfold mask0; simp; omega
    rw [List.getElem?_eq_getElem hlen]
    by_contra hne
    apply hqo
    rw [mem_output]
    refine ⟨k, h3, ?_⟩
    rw [List.getElem?_eq_getElem hlen]
    cases hmk : mask[k] with
    | true => rfl
    | false => rw [hmk] at hne; exact absurd rfl hne

/-- C59: if at least half of the pixels of a class are requested, the class gets exactly the requested number of
samples, or all its pixels, whatever the random numbers. -/
theorem c59_exact_partial (tab : List Stratum) (hg : GoodTab tab) (image : List Pix)
    (hp : ∀ p ∈ image, 0 < p.rnd ∧ p.rnd ≤ 1) (hcap : (chosen tab image).length ≤ 10 * (tab.map (·.size)).sum)
    (s : Stratum) (hs : s ∈ tab) (hhalf : s.count ≤ 2 * s.size) :
    ∃ out, sample tab image = .ok out ∧ number s.cls out = min s.size (number s.cls image) := by
  obtain ⟨out, h1, -, h3, -⟩ := c59_sizes_partial tab hg image (fun p h => (hp p h).1) hcap
  refine ⟨out, h1, ?_⟩
  rw [h3 s hs]
  congr 1
  unfold number chosen
  rw [List.filter_filter]
  congr 1
  apply List.filter_congr
  intro p hpi
  by_cases hc : p.cls = s.cls
  · have : Chosen tab p := by
      refine ⟨s, hs, hc.symm, ?_⟩
      have h1 : (s.count : ℚ) ≤ 2 * s.size := by exact_mod_cast hhalf
      have h2 := (hp p hpi).2
      have h0 : (0 : ℚ) ≤ s.count := Nat.cast_nonneg _
      nlinarith
    simp [hc, this]
  · simp [hc]

/-- C59: a sample is at the centre of its pixel. -/
theorem c59_centre (ul res : ℚ) (n : Nat) :
    coord ul res n = ((ul + n * res) + (ul + (n + 1) * res)) / 2 := by
  unfold coord; ring

/-! ## Violations -/

theorem thin_zero (c : Int) (rows : List Pix) : ∀ (n : Nat) (mask : List Bool), cnt c rows mask = 0 →
    0 < mask.length → mask[0]? = some false → thin c rows n mask = .ok mask
  | 0, _, _, _, _ => rfl
  | n + 1, mask, h, hl, h0 => by
    have e : mask.set 0 false = mask := by
      cases mask with
      | nil => rfl
      | cons a m => simp only [List.getElem?_cons_zero, Option.some.injEq] at h0; subst h0; rfl
    rw [thin, rowMax_none c rows mask h, if_pos hl, e, thin_zero c rows n mask h hl h0]

theorem thin_add (c : Int) (rows : List Pix) (k : Nat) : ∀ (n : Nat) (mask : List Bool),
    thin c rows (n + k) mask = (thin c rows n mask).bind (thin c rows k)
  | 0, mask => by rw [Nat.zero_add]; rfl
  | n + 1, mask => by
    rw [show n + 1 + k = (n + k) + 1 by omega, thin, thin]
    split
    · exact thin_add c rows k n _
    · rfl

/-- C59, violated: if more pixels of a class have been counted than could be stored (the column `count` of the table
is too small for the image), thinning this class removes all its samples and then the first sample of the table,
whatever its class. -/
theorem c59_overflow_violated (c : Int) (rows : List Pix) (hr : ∀ p ∈ rows, -1 < p.rnd) (mask : List Bool)
    (hl : rows.length ≤ mask.length) (h0 : rows ≠ []) (n : Nat) (hn : cnt c rows mask < n) :
    ∃ mask', thin c rows n mask = .ok mask' ∧ number c (output rows mask') = 0 ∧ mask'[0]? = some false := by
  obtain ⟨m1, a1, a2, a3, -⟩ := thin_spec c rows hr (cnt c rows mask) mask hl (le_refl _)
  have hlen : 0 < m1.length := by
    rw [a2]
    have := List.length_pos_iff.2 h0
    omega
  have hz : cnt c rows m1 = 0 := by omega
  have hz' : cnt c rows (m1.set 0 false) = 0 := by
    by_contra hne
    have hsub : cnt c rows (m1.set 0 false) ≤ cnt c rows m1 := by
      clear a3 hz hne a1 a2 hr hl h0 hn
      cases m1 with
      | nil => exact le_refl _
      | cons a m =>
        cases rows with
        | nil => exact le_refl _
        | cons p rows =>
          simp only [cnt, List.set_cons_zero, List.zip_cons_cons, List.filter_cons, Bool.and_false,
            Bool.false_eq_true, if_false]
          split
          · rw [List.length_cons]; omega
          · exact le_refl _
    omega
  refine ⟨m1.set 0 false, ?_, ?_, ?_⟩
  · obtain ⟨k, rfl⟩ : ∃ k, n = cnt c rows mask + (k + 1) := ⟨n - cnt c rows mask - 1, by omega⟩
    rw [thin_add, a1]
    show thin c rows (k + 1) m1 = _
    rw [thin, rowMax_none c rows m1 hz, if_pos hlen]
    exact thin_zero c rows k _ hz' (by simpa using hlen) (by simp [hlen])
  · rw [output_cnt]; exact hz'
  · simp [hlen]

/-- C59, violated: a pixel whose class is not listed is pre-selected if its random number is 0. -/
theorem c59_unlisted_violated (tab : List Stratum) (image : List Pix) (p : Pix) (hc : p.cls ∉ tab.map (·.cls))
    (h0 : p.rnd = 0) (hcap : (preselect tab image).1.length < 10 * (tab.map (·.size)).sum) :
    p ∈ (preselect tab (image ++ [p])).1 := by
  rw [show 10 * (tab.map (·.size)).sum = capacity tab by rw [capacity, Nat.mul_comm]] at hcap
  unfold preselect at hcap ⊢
  rw [List.foldl_append, List.foldl_cons, List.foldl_nil]
  have e : accept tab p.cls p.rnd = true := by
    unfold accept
    have : entry tab p.cls = none := by
      unfold entry
      rw [List.find?_eq_none]
      intro s hs
      simp only [decide_eq_true_eq]
      intro h
      exact hc (List.mem_map.2 ⟨s, by simpa using hs, h⟩)
    rw [this, h0]; rfl
  generalize image.foldl (preStep tab) ([], []) = st at hcap ⊢
  unfold preStep
  rw [if_pos e, if_pos hcap]
  simp

/-- C59, violated: a class that is listed twice is thinned twice: of `n` pre-selected pixels, twice the surplus is
removed. -/
theorem c59_duplicate_violated (tab : List Stratum) (s s' : Stratum) (hs : s.cls = s'.cls) (rows : List Pix)
    (hr : ∀ p ∈ rows, -1 < p.rnd) (hn : 2 * (number s.cls rows - sizeOf tab s.cls) ≤ number s.cls rows) :
    ∃ mask', thinAll tab rows rows [s, s'] (mask0 tab rows) = .ok mask' ∧
      number s.cls (output rows mask') = number s.cls rows - 2 * (number s.cls rows - sizeOf tab s.cls) := by
  have hc := cnt_mask0 tab s.cls rows
  obtain ⟨m1, a1, a2, a3, -⟩ := thin_spec s.cls rows hr (number s.cls rows - sizeOf tab s.cls) (mask0 tab rows)
    (by unfold mask0; simp) (by omega)
  obtain ⟨m2, b1, b2, b3, -⟩ := thin_spec s.cls rows hr (number s.cls rows - sizeOf tab s.cls) m1
    (by rw [a2]; unfold mask0; simp) (by omega)
  refine ⟨m2, ?_, by rw [output_cnt, b3, a3, hc]; omega⟩
  rw [thinAll]
  show Out.bind (thin s.cls rows (number s.cls rows - sizeOf tab s.cls) _) _ = _
  rw [a1]
  show thinAll tab rows rows [s'] m1 = _
  rw [thinAll, ← hs]
  show Out.bind (thin s.cls rows (number s.cls rows - sizeOf tab s.cls) _) _ = _
  rw [b1]; rfl

/-! ## Examples -/

/-- Two classes. -/
def tabEx : List Stratum := [⟨1, 2, 4⟩, ⟨7, 1, 100⟩]

/-- Six pixels, one of an unlisted class. -/
def imageEx : List Pix :=
  [⟨1, 1 / 2, 0, 0⟩, ⟨7, 3 / 4, 1, 0⟩, ⟨1, 1 / 4, 2, 0⟩, ⟨1, 3 / 4, 0, 1⟩, ⟨3, 1 / 100, 1, 1⟩, ⟨7, 1 / 100, 2, 1⟩]

example : GoodTab tabEx ∧ (∀ p ∈ imageEx, 0 < p.rnd ∧ p.rnd ≤ 1) ∧
    (chosen tabEx imageEx).length ≤ 10 * (tabEx.map (·.size)).sum ∧ (⟨1, 2, 4⟩ : Stratum) ∈ tabEx := by
  refine ⟨⟨by decide, by decide⟩, by decide +kernel, by decide +kernel, by decide⟩

/-- The result for the example: the pixel of class 1 with the largest random number is removed. -/
example : sample tabEx imageEx = .ok [⟨1, 1 / 2, 0, 0⟩, ⟨1, 1 / 4, 2, 0⟩, ⟨7, 1 / 100, 2, 1⟩] := by
  decide +kernel

end Verif.Strat
