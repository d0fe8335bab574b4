import Mathlib.Tactic.Linarith
import Mathlib.Tactic.Ring
import Mathlib.Tactic.FieldSimp
import Mathlib.Tactic.NormNum
import Mathlib.Tactic.Push
import Verif.Noise.Spec

/-!
# Theorems about the noise screening: C10, C52
-/

namespace Verif.Noise

open Spec

/-- What a search returns are valid observations on the correct side. -/
def Good (msk : Nat → Bool) (mid nt : Nat) (b : Nb) : Prop :=
  (b.vl = true → msk b.left = true ∧ b.left < mid) ∧ (b.vr = true → msk b.right = true ∧ mid < b.right ∧ b.right < nt)

theorem search_good (msk : Nat → Bool) (mid nt : Nat) (ts : List Nat) (hts : ∀ t ∈ ts, t < nt) (b : Nb)
    (h : Good msk mid nt b) : Good msk mid nt (search msk mid ts b) := by
  induction ts generalizing b with
  | nil => exact h
  | cons t ts ih =>
    have ht := hts t List.mem_cons_self
    have ih := ih fun t ht => hts t (List.mem_cons_of_mem _ ht)
    simp only [search]
    by_cases h1 : msk t = true
    · rw [if_neg (by simp [h1])]
      by_cases h2 : t < mid
      · rw [if_pos h2]
        exact ih _ ⟨fun _ => ⟨h1, h2⟩, h.2⟩
      · rw [if_neg h2]
        by_cases h3 : t = mid
        · rw [if_pos h3]; exact ih _ h
        · rw [if_neg h3]
          by_cases h4 : b.vr = true
          · rw [if_neg (by simp [h4])]
            exact h
          · rw [if_pos (by simp [h4])]
            exact ih _ ⟨h.1, fun _ => ⟨h1, by simp only; omega, ht⟩⟩
    · rw [if_pos (by simp [h1])]
      exact ih _ h

theorem mem_from {l nt t : Nat} (h : t ∈ from_ l nt) : t < nt := by
  simp only [from_, List.mem_map, List.mem_range] at h
  obtain ⟨a, h1, rfl⟩ := h
  omega

theorem mem_mids {nt t : Nat} : t ∈ mids nt ↔ 1 ≤ t ∧ t + 1 < nt := by
  simp only [mids, List.mem_map, List.mem_range]
  constructor
  · rintro ⟨a, h1, rfl⟩; omega
  · rintro ⟨h1, h2⟩; exact ⟨t - 1, by omega, by omega⟩

/-- Two different valid observations, the first of them the one to be removed. -/
def Pair (msk : Nat → Bool) (nt t : Nat) : Prop := (t < nt ∧ msk t = true) ∧ ∃ t', t' < nt ∧ t' ≠ t ∧ msk t' = true

theorem blame_pair {s : Series} {msk : Nat → Bool} {mid : Nat} {b : Nb} (h : Good msk mid s.nt b) (hm : msk mid = true)
    (hmid : mid < s.nt) (hl : b.vl = true) (hr : b.vr = true) : Pair msk s.nt (blame s b mid) := by
  obtain ⟨l1, l2⟩ := h.1 hl
  obtain ⟨r1, r2, r3⟩ := h.2 hr
  unfold blame
  split
  · exact ⟨⟨by omega, l1⟩, mid, hmid, by omega, hm⟩
  · split
    · exact ⟨⟨r3, r1⟩, mid, hmid, by omega, hm⟩
    · exact ⟨⟨hmid, hm⟩, b.left, by omega, by omega, l1⟩

/-- Either all residuals were zero, or the largest one points to a valid observation. -/
def Found {F : Type} (o : Ops F) (s : Series) (msk : Nat → Bool) (a : Round F) : Prop :=
  (a.maxr = o.half 0 ∧ a.ssqr = o.half 0) ∨ Pair msk s.nt a.tmaxr

theorem midStep_found {F : Type} {o : Ops F} (ho : Ieee o) {s : Series} {msk : Nat → Bool} {a : Round F} {mid : Nat}
    (hmid : mid < s.nt) (h : Found o s msk a) : Found o s msk (midStep o s msk a mid) := by
  unfold midStep
  by_cases hm : msk mid = true
  · rw [if_neg (by simp [hm])]
    have hg := search_good msk mid s.nt (from_ a.nb.left s.nt) (fun t ht => mem_from ht)
      { a.nb with vl := false, vr := false } ⟨fun h => (by cases h), fun h => (by cases h)⟩
    simp only
    generalize search msk mid (from_ a.nb.left s.nt) { a.nb with vl := false, vr := false } = b at hg ⊢
    by_cases hv : (!b.vl || !b.vr) = true
    · rw [if_pos hv]; exact h
    · rw [if_neg hv]
      simp only [Bool.or_eq_true, Bool.not_eq_true', not_or, Bool.not_eq_false] at hv
      by_cases hgt : o.gt (o.half (residual2 s b.left mid b.right)) a.maxr = true
      · right
        simp only [hgt, if_true]
        exact blame_pair hg hm hmid hv.1 hv.2
      · rcases h with ⟨h1, h2⟩ | h
        · left
          simp only [hgt, h2]
          rw [h1, ho.gt_zero] at hgt
          have : residual2 s b.left mid b.right = 0 := by omega
          rw [this, ho.sq_zero, ho.add_zero]
          exact ⟨by simpa using h1, rfl⟩
        · right
          simp only [hgt]
          exact h
  · rw [if_pos (by simp [hm])]
    exact h

theorem round_found {F : Type} {o : Ops F} (ho : Ieee o) (s : Series) (msk : Nat → Bool) :
    Found o s msk (round o s msk) := by
  unfold round
  have : ∀ (l : List Nat) (a : Round F), (∀ t ∈ l, t < s.nt) → Found o s msk a →
      Found o s msk (l.foldl (midStep o s msk) a) := by
    intro l
    induction l with
    | nil => intro a _ h; exact h
    | cons t l ih =>
      intro a hl h
      exact ih _ (fun t ht => hl t (List.mem_cons_of_mem _ ht)) (midStep_found ho (hl t List.mem_cons_self) h)
  exact this _ _ (fun t ht => by have := mem_mids.1 ht; omega) (Or.inl ⟨rfl, rfl⟩)

/-- Number of valid observations. -/
def nvalid (nt : Nat) (msk : Nat → Bool) : Nat := (List.range nt).countP msk

theorem countP_remove (l : List Nat) (hl : l.Nodup) (msk : Nat → Bool) (t : Nat) (ht : t ∈ l) (hm : msk t = true) :
    l.countP (fun k => if k = t then false else msk k) + 1 = l.countP msk := by
  induction l with
  | nil => cases ht
  | cons a l ih =>
    rw [List.nodup_cons] at hl
    by_cases hat : a = t
    · subst hat
      rw [List.countP_cons_of_pos hm, List.countP_cons_of_neg (by simp)]
      congr 1
      apply List.countP_congr
      intro x hx
      have : x ≠ a := by rintro rfl; exact hl.1 hx
      simp [this]
    · have hta : t ∈ l := by
        rcases List.mem_cons.1 ht with h | h
        · exact absurd h.symm hat
        · exact h
      have := ih hl.2 hta
      by_cases hma : msk a = true
      · rw [List.countP_cons_of_pos hma, List.countP_cons_of_pos (by simp [hat, hma])]
        omega
      · rw [List.countP_cons_of_neg hma, List.countP_cons_of_neg (by simp [hat, hma])]
        omega

theorem nvalid_remove {nt : Nat} {msk : Nat → Bool} {t : Nat} (h : Pair msk nt t) :
    nvalid nt (fun k => if k = t then false else msk k) + 1 = nvalid nt msk ∧ 2 ≤ nvalid nt msk := by
  obtain ⟨⟨h1, h2⟩, t', h3, h4, h5⟩ := h
  have a := countP_remove (List.range nt) List.nodup_range msk t (List.mem_range.2 h1) h2
  refine ⟨a, ?_⟩
  have : 0 < (List.range nt).countP (fun k => if k = t then false else msk k) :=
    List.countP_pos_iff.2 ⟨t', List.mem_range.2 h3, by simp [h4, h5]⟩
  unfold nvalid
  omega

/-- What the outlier phase guarantees about a state reached from the mask `msk`. -/
structure Sub {F : Type} (msk : Nat → Bool) (a : Outliers F) : Prop where
  le : ∀ t, a.msk t = true → msk t = true
  removed : ∀ t, a.removed t = true ↔ msk t = true ∧ a.msk t = false

theorem outliers_spec {F : Type} {o : Ops F} (ho : Ieee o) (s : Series) (above : F) (msk : Nat → Bool) (fuel : Nat) :
    ∀ rel n (a : Outliers F), Sub msk a → 1 ≤ fuel → nvalid s.nt a.msk ≤ fuel →
      ∃ a', outliers o s above fuel rel n a = some a' ∧ Sub msk a' := by
  induction fuel with
  | zero => intro rel n a _ h; omega
  | succ fuel ih =>
    intro rel n a hs _ hf
    simp only [outliers]
    -- when no further round is entered, the rest of the fuel does not matter
    have hstop : ∀ (fuel : Nat) rel n (a : Outliers F), Sub msk a → (o.gt rel above && decide (n > 2)) = false →
        ∃ a', outliers o s above fuel rel n a = some a' ∧ Sub msk a' := by
      intro fuel rel n a hs hc
      cases fuel with
      | zero => exact ⟨a, by simp only [outliers]; rw [if_neg (by simp [hc])], hs⟩
      | succ f => exact ⟨a, by simp only [outliers]; rw [if_neg (by simp [hc])], hs⟩
    by_cases hc : (o.gt rel above && decide (n > 2)) = true
    · rw [if_pos hc]
      by_cases hn : (round o s a.msk).n < 2
      · rw [if_pos hn]
        exact hstop fuel rel _ a hs (by rw [Bool.and_eq_false_iff]; right; simp; omega)
      · rw [if_neg hn]
        by_cases hg : o.gt (o.div (round o s a.msk).maxr (o.sqrt (o.divn (round o s a.msk).ssqr (round o s a.msk).n)))
            above = true
        · rw [if_pos hg]
          have hp : Pair a.msk s.nt (round o s a.msk).tmaxr := by
            rcases round_found ho s a.msk with ⟨h1, h2⟩ | h
            · rw [h1, h2, ho.divn_zero _ (by omega), ho.sqrt_zero, ho.nan] at hg
              cases hg
            · exact h
          obtain ⟨c1, c2⟩ := nvalid_remove hp
          apply ih
          · refine ⟨?_, ?_⟩
            · intro t ht
              simp only at ht
              split at ht
              · cases ht
              · exact hs.le t ht
            · intro t
              simp only
              split
              · next he => subst he; simp [hs.le _ hp.1.2]
              · exact hs.removed t
          · omega
          · simp only; omega
        · rw [if_neg hg]
          exact hstop fuel _ _ _ ⟨hs.le, hs.removed⟩ (by simp [hg])
    · rw [if_neg hc]
      exact ⟨a, rfl, hs⟩

theorem restore_spec {F : Type} (o : Ops F) (s : Series) (nodata : Int) (below : F) (a : Outliers F) (t : Nat) :
    (a.msk t = true → restore o s nodata below a t = true) ∧
    (a.msk t = false → restore o s nodata below a t = true →
      s.dat t ≠ nodata ∧ a.removed t = false ∧ 1 ≤ t ∧ t + 1 < s.nt) := by
  unfold restore
  cases hn : a.noise with
  | none => exact ⟨id, fun h1 h2 => by simp only at h2; rw [h1] at h2; cases h2⟩
  | some noise =>
    simp only
    have key : ∀ (l : List Nat) (c : (Nat → Bool) × Nat), (∀ k ∈ l, 1 ≤ k ∧ k + 1 < s.nt) →
        (c.1 t = true → (l.foldl (restoreStep o s nodata below noise a.removed) c).1 t = true) ∧
        (c.1 t = false → (l.foldl (restoreStep o s nodata below noise a.removed) c).1 t = true →
          s.dat t ≠ nodata ∧ a.removed t = false ∧ 1 ≤ t ∧ t + 1 < s.nt) := by
      intro l
      induction l with
      | nil => intro c _; exact ⟨id, fun h1 h2 => by simp only [List.foldl_nil] at h2; rw [h1] at h2; cases h2⟩
      | cons k l ih =>
        intro c hl
        simp only [List.foldl_cons]
        obtain ⟨i1, i2⟩ := ih (restoreStep o s nodata below noise a.removed c k)
          fun x hx => hl x (List.mem_cons_of_mem _ hx)
        have hstep : (restoreStep o s nodata below noise a.removed c k).1 t = c.1 t ∨
            ((restoreStep o s nodata below noise a.removed c k).1 t = true ∧ t = k ∧ s.dat t ≠ nodata ∧
              a.removed t = false) := by
          unfold restoreStep
          by_cases hc : (c.1 k || decide (s.dat k = nodata) || a.removed k) = true
          · rw [if_pos hc]; left; rfl
          · rw [if_neg hc]
            simp only [Bool.or_eq_true, decide_eq_true_eq, not_or, Bool.not_eq_true] at hc
            simp only
            split
            · left; rfl
            · split
              · by_cases htk : t = k
                · subst htk
                  right
                  exact ⟨by simp, rfl, hc.1.2, hc.2⟩
                · left; simp [htk]
              · left; rfl
        constructor
        · intro h
          apply i1
          rcases hstep with h' | h'
          · rw [h', h]
          · exact h'.1
        · intro h1 h2
          rcases hstep with h' | h'
          · exact i2 (by rw [h', h1]) h2
          · exact ⟨h'.2.2.1, h'.2.2.2, h'.2.1 ▸ hl k List.mem_cons_self⟩
    exact key (mids s.nt) (a.msk, 0) fun k hk => mem_mids.1 hk

/-! ## C10 -/

/-- C10: noise screening of a pixel ends, after at most as many rounds of outlier removal as there are dates. -/
theorem c10_terminates {F : Type} (o : Ops F) (ho : Ieee o) (s : Series) (nodata : Int) (above below : F)
    (off inMask : Bool) (msk : Nat → Bool) :
    ∃ r, screen o s nodata above below off inMask s.nt msk = some r := by
  unfold screen
  by_cases hc : (off || decide (s.nt < 3) || !inMask) = true
  · rw [if_pos hc]; exact ⟨_, rfl⟩
  · rw [if_neg hc]
    simp only [Bool.or_eq_true, decide_eq_true_eq, not_or] at hc
    obtain ⟨a, h, _⟩ := outliers_spec ho s above msk s.nt o.intMax s.nt ⟨msk, fun _ => false, none⟩
      ⟨fun _ h => h, fun t => by simp⟩ (by omega)
      (by
        have := List.countP_le_length (p := msk) (l := List.range s.nt)
        rw [List.length_range] at this
        exact this)
    rw [h]
    exact ⟨_, rfl⟩

/-- C10: the outlier phase only removes observations; what it has removed is not restored; an observation
that becomes valid is not nodata; pixels outside of the processing mask are not changed. -/
theorem c10_history {F : Type} (o : Ops F) (ho : Ieee o) (s : Series) (nodata : Int) (above below : F)
    (off inMask : Bool) (msk out1 out2 : Nat → Bool)
    (h : screen o s nodata above below off inMask s.nt msk = some (out1, out2)) (t : Nat) :
    (out1 t = true → msk t = true) ∧
    (msk t = true → out1 t = false → out2 t = false) ∧
    (msk t = true → out1 t = true → out2 t = true) ∧
    (msk t = false → out2 t = true → s.dat t ≠ nodata ∧ 1 ≤ t ∧ t + 1 < s.nt) ∧
    (inMask = false → out2 t = msk t) := by
  unfold screen at h
  by_cases hc : (off || decide (s.nt < 3) || !inMask) = true
  · rw [if_pos hc] at h
    cases h
    exact ⟨id, fun h1 h2 => (by rw [h1] at h2; cases h2), fun h1 _ => h1,
      fun h1 h2 => (by rw [h1] at h2; cases h2), fun _ => rfl⟩
  · rw [if_neg hc] at h
    simp only [Bool.or_eq_true, decide_eq_true_eq, not_or] at hc
    obtain ⟨a, ha, hs⟩ := outliers_spec ho s above msk s.nt o.intMax s.nt ⟨msk, fun _ => false, none⟩
      ⟨fun _ h => h, fun t => by simp⟩ (by omega)
      (by
        have := List.countP_le_length (p := msk) (l := List.range s.nt)
        rw [List.length_range] at this
        exact this)
    rw [ha] at h
    simp only [Option.map_some, Option.some.injEq, Prod.mk.injEq] at h
    obtain ⟨rfl, rfl⟩ := h
    obtain ⟨r1, r2⟩ := restore_spec o s nodata below a t
    refine ⟨hs.le t, ?_, fun _ h => r1 h, ?_, ?_⟩
    · intro h1 h2
      by_contra h3
      have := (r2 h2 (by simpa using h3)).2.1
      have h4 := (hs.removed t).2 ⟨h1, h2⟩
      rw [this] at h4; cases h4
    · intro h1 h2
      have h3 : a.msk t = false := by
        by_contra h4
        have := hs.le t (by simpa using h4)
        rw [h1] at this; cases this
      have := r2 h3 h2
      exact ⟨this.1, this.2.2⟩
    · intro hm
      simp [hm] at hc

/-- Integer arithmetic (ratios in per mille), or not a number. -/
def exact : Ops (Option Nat) where
  half k := some k
  gt a b := match a, b with
    | some a, some b => decide (b < a)
    | _, _ => false
  sq a := a.map fun a => a * a
  add a b := a.bind fun a => b.map fun b => a + b
  divn a n := if n = 0 then none else a.map fun a => a / n
  sqrt a := a.map Nat.sqrt
  div a b := a.bind fun a => b.bind fun b => if b = 0 then none else some (1000 * a / b)
  intMax := some 2147483647000

theorem exact_ieee : Ieee exact where
  gt_zero k := by simp [exact]
  sq_zero := by simp [exact]
  add_zero := by simp [exact]
  divn_zero n hn := by simp [exact]; omega
  sqrt_zero := by simp [exact]
  nan x := by simp [exact]

/-- A series with an outlier (date 3), which is removed, and a masked good value (date 5), which is restored. -/
def demo : Series where
  nt := 9
  dat t := [10, 11, 10, 90, 12, 11, 10, 11, -1].getD t 0
  ce t := 10 * t

example : (screen exact demo (-1) (some 1500) (some 1000) false true 9 fun t => t != 5 && t != 8).map
    (fun r => ((List.range 9).map r.1, (List.range 9).map r.2)) =
    some ([true, true, true, false, true, false, true, true, false],
      [true, true, true, false, true, true, true, true, false]) := by decide +kernel

theorem search2_good (msk : Nat → Bool) (mid nt : Nat) (ts : List Nat) (hts : ∀ t ∈ ts, t < nt) (b : Nb)
    (h : Good msk mid nt b) : Good msk mid nt (search2 msk mid ts b) := by
  induction ts generalizing b with
  | nil => exact h
  | cons t ts ih =>
    have ht := hts t List.mem_cons_self
    have ih := ih fun t ht => hts t (List.mem_cons_of_mem _ ht)
    simp only [search2]
    by_cases h1 : msk t = true
    · rw [if_neg (by simp [h1])]
      by_cases h2 : t < mid
      · rw [if_pos h2]
        exact ih _ ⟨fun _ => ⟨h1, h2⟩, h.2⟩
      · rw [if_neg h2]
        by_cases h3 : t = mid
        · rw [if_pos h3]; exact ih _ h
        · rw [if_neg h3]
          exact ⟨h.1, fun _ => ⟨h1, by simp only; omega, ht⟩⟩
    · rw [if_pos (by simp [h1])]
      exact ih _ h

/-- C10: an observation is only restored if its residual, relative to the noise of the series, is below the
threshold; the residual is calculated with an earlier and a later observation that are valid in the result. -/
theorem c10_restored {F : Type} (o : Ops F) (s : Series) (nodata : Int) (below : F) (a : Outliers F) (t : Nat)
    (h0 : a.msk t = false) (h1 : restore o s nodata below a t = true) :
    ∃ noise l r, a.noise = some noise ∧ (l < t ∧ t < r ∧ r < s.nt) ∧
      (restore o s nodata below a l = true ∧ restore o s nodata below a r = true) ∧
      o.gt below (o.div (o.half (residual2 s l t r)) noise) = true := by
  unfold restore at h1 ⊢
  cases hn : a.noise with
  | none => rw [hn] at h1; simp only at h1; rw [h0] at h1; cases h1
  | some noise =>
    rw [hn] at h1
    simp only at h1 ⊢
    have mono1 : ∀ (c : (Nat → Bool) × Nat) k x, c.1 x = true →
        (restoreStep o s nodata below noise a.removed c k).1 x = true := by
      intro c k x hx
      unfold restoreStep
      split
      · exact hx
      · simp only
        split
        · exact hx
        · split
          · simp [hx]
          · exact hx
    have mono : ∀ (l : List Nat) (c : (Nat → Bool) × Nat) x, c.1 x = true →
        (l.foldl (restoreStep o s nodata below noise a.removed) c).1 x = true := by
      intro l
      induction l with
      | nil => intro c x h; exact h
      | cons k l ih => intro c x h; exact ih _ x (mono1 c k x h)
    have key : ∀ (l : List Nat) (c : (Nat → Bool) × Nat), c.1 t = false →
        (l.foldl (restoreStep o s nodata below noise a.removed) c).1 t = true →
        ∃ x y, (x < t ∧ t < y ∧ y < s.nt) ∧
          ((l.foldl (restoreStep o s nodata below noise a.removed) c).1 x = true ∧
           (l.foldl (restoreStep o s nodata below noise a.removed) c).1 y = true) ∧
          o.gt below (o.div (o.half (residual2 s x t y)) noise) = true := by
      intro l
      induction l with
      | nil => intro c h h'; simp only [List.foldl_nil] at h'; rw [h] at h'; cases h'
      | cons k l ih =>
        intro c h h'
        simp only [List.foldl_cons] at h' ⊢
        by_cases hc : (restoreStep o s nodata below noise a.removed c k).1 t = true
        · unfold restoreStep at hc
          split at hc
          · rw [h] at hc; cases hc
          · simp only at hc
            have hg := search2_good c.1 k s.nt (from_ c.2 s.nt) (fun t ht => mem_from ht) ⟨c.2, 0, 0, 0, false, false⟩
              ⟨fun h => (by cases h), fun h => (by cases h)⟩
            generalize search2 c.1 k (from_ c.2 s.nt) ⟨c.2, 0, 0, 0, false, false⟩ = b at hc hg
            split at hc
            · rw [h] at hc; cases hc
            · next hv =>
              simp only [Bool.or_eq_true, Bool.not_eq_true', not_or, Bool.not_eq_false] at hv
              split at hc
              · next hgt =>
                simp only at hc
                split at hc
                · next he =>
                  subst he
                  have b1 := hg.1 hv.1
                  have b2 := hg.2 hv.2
                  exact ⟨b.left, b.right, ⟨b1.2, b2.2.1, b2.2.2⟩,
                    ⟨mono l _ _ (mono1 c t _ b1.1), mono l _ _ (mono1 c t _ b2.1)⟩, hgt⟩
                · rw [h] at hc; cases hc
              · rw [h] at hc; cases hc
        · exact ih _ (by simpa using hc) h'
    obtain ⟨x, y, k1, k2, k3⟩ := key (mids s.nt) (a.msk, 0) h0 h1
    exact ⟨noise, x, y, rfl, k1, k2, k3⟩

/-! ## The triplets of a round -/

/-- Result of the search for an ascending list. -/
theorem search_eq (msk : Nat → Bool) (mid : Nat) (ts : List Nat) (hs : ts.Pairwise (· < ·)) (b : Nb)
    (hb : b.vr = true → ∀ t ∈ ts, mid < t) :
    let r := search msk mid ts b
    let L := ts.filter fun t => msk t && decide (t < mid)
    let R := ts.filter fun t => msk t && decide (mid < t)
    r.vl = (b.vl || !L.isEmpty) ∧ r.left = L.getLast?.getD b.left ∧
    (b.vr = true → r.vr = true ∧ r.right = b.right) ∧
    (b.vr = false → r.vr = !R.isEmpty ∧ r.right = R.head?.getD b.right) := by
  induction ts generalizing b with
  | nil => simp [search]
  | cons t ts ih =>
    rw [List.pairwise_cons] at hs
    simp only [search]
    by_cases h1 : msk t = true
    · rw [if_neg (by simp [h1])]
      by_cases h2 : t < mid
      · have hvr : b.vr = false := by
          by_contra h
          have := hb (by simpa using h) t List.mem_cons_self
          omega
        rw [if_pos h2]
        obtain ⟨i1, i2, _, i4⟩ := ih hs.2 { b with left := t, first := if b.vl then b.first else t, vl := true }
          (by simp [hvr])
        obtain ⟨i5, i6⟩ := i4 hvr
        refine ⟨by rw [i1]; simp [h1, h2], ?_, by simp [hvr], fun _ => ?_⟩
        · rw [i2, List.filter_cons_of_pos (by simp [h1, h2]), List.getLast?_cons]
          simp
        · rw [List.filter_cons_of_neg (by simp [h1]; omega)]
          exact ⟨i5, i6⟩
      · rw [if_neg h2, List.filter_cons_of_neg (by simp [h2])]
        by_cases h3 : t = mid
        · rw [if_pos h3, List.filter_cons_of_neg (by simp [h3])]
          exact ih hs.2 b fun hv t ht => hb hv t (List.mem_cons_of_mem _ ht)
        · rw [if_neg h3, List.filter_cons_of_pos (by simp [h1]; omega)]
          have hgt : ∀ x ∈ ts, mid < x := fun x hx => by have := hs.1 x hx; omega
          have hL : (ts.filter fun t => msk t && decide (t < mid)) = [] := by
            rw [List.filter_eq_nil_iff]
            intro x hx
            have := hgt x hx
            simp; intro _; omega
          by_cases h4 : b.vr = true
          · rw [if_neg (by simp [h4]), hL]
            simp [h4]
          · rw [if_pos (by simp [h4])]
            have h4' : b.vr = false := by simpa using h4
            obtain ⟨i1, i2, i3, _⟩ := ih hs.2 { b with right := t, last := t, vr := true } fun _ => hgt
            obtain ⟨i5, i6⟩ := i3 rfl
            refine ⟨i1, i2, by simp [h4'], fun _ => ?_⟩
            simp [i5, i6]
    · rw [if_pos (by simp [h1]), List.filter_cons_of_neg (by simp [h1]), List.filter_cons_of_neg (by simp [h1])]
      exact ih hs.2 b fun hv t ht => hb hv t (List.mem_cons_of_mem _ ht)

theorem from_sorted (l nt : Nat) : (from_ l nt).Pairwise (· < ·) := by
  unfold from_
  rw [List.pairwise_map]
  exact List.pairwise_lt_range.imp fun h => by omega

theorem mem_from_iff {l nt t : Nat} : t ∈ from_ l nt ↔ l ≤ t ∧ t < nt := by
  simp only [from_, List.mem_map, List.mem_range]
  constructor
  · rintro ⟨a, h, rfl⟩; omega
  · rintro ⟨h1, h2⟩; exact ⟨t - l, by omega, by omega⟩

/-- The search gives the neighbours if there are any. -/
theorem search_triplet (msk : Nat → Bool) (mid nt : Nat) (hmid : mid < nt) (hm : msk mid = true) (b0 : Nb)
    (hl : b0.left = 0 ∨ (msk b0.left = true ∧ b0.left < mid)) :
    let b := search msk mid (from_ b0.left nt) { b0 with vl := false, vr := false }
    ((b.vl = true ∧ b.vr = true) → Triplet msk nt (b.left, mid, b.right)) ∧
    (∀ l r, Triplet msk nt (l, mid, r) → b.vl = true ∧ b.vr = true) ∧
    (b.left = 0 ∨ (msk b.left = true ∧ b.left < mid)) := by
  obtain ⟨h1, h2, _, h4⟩ := search_eq msk mid (from_ b0.left nt) (from_sorted _ _)
    { b0 with vl := false, vr := false } (by simp)
  obtain ⟨h5, h6⟩ := h4 rfl
  intro b
  change b.vl = _ at h1
  change b.left = _ at h2
  change b.vr = _ at h5
  change b.right = _ at h6
  clear_value b
  have hsort := from_sorted b0.left nt
  have hLs : ((from_ b0.left nt).filter fun t => msk t && decide (t < mid)).Pairwise (· < ·) := hsort.filter _
  have hRs : ((from_ b0.left nt).filter fun t => msk t && decide (mid < t)).Pairwise (· < ·) := hsort.filter _
  have hLm : ∀ t, t ∈ ((from_ b0.left nt).filter fun t => msk t && decide (t < mid)) ↔
      (b0.left ≤ t ∧ t < nt) ∧ msk t = true ∧ t < mid := by
    intro t; simp [List.mem_filter, mem_from_iff]
  have hRm : ∀ t, t ∈ ((from_ b0.left nt).filter fun t => msk t && decide (mid < t)) ↔
      (b0.left ≤ t ∧ t < nt) ∧ msk t = true ∧ mid < t := by
    intro t; simp [List.mem_filter, mem_from_iff]
  generalize ((from_ b0.left nt).filter fun t => msk t && decide (t < mid)) = L at *
  generalize ((from_ b0.left nt).filter fun t => msk t && decide (mid < t)) = R at *
  have hbl : b0.left < mid ∨ mid = 0 := by rcases hl with h | h <;> omega
  refine ⟨?_, ?_, ?_⟩
  · rintro ⟨v1, v2⟩
    obtain ⟨L', l, rfl⟩ : ∃ L' l, L = L' ++ [l] := by
      rcases List.eq_nil_or_concat L with h | ⟨L', l, h⟩
      · rw [h1, h] at v1; simp at v1
      · exact ⟨L', l, by simpa using h⟩
    obtain ⟨r, R', rfl⟩ : ∃ r R', R = r :: R' := by
      cases R with
      | nil => rw [h5] at v2; simp at v2
      | cons r R' => exact ⟨r, R', rfl⟩
    simp only [List.getLast?_append, List.getLast?_singleton, Option.some_or, Option.getD_some] at h2
    simp only [List.head?_cons, Option.getD_some] at h6
    have ml := (hLm l).1 (by simp)
    have mr := (hRm r).1 (by simp)
    rw [h2, h6]
    refine ⟨⟨ml.2.2, mr.2.2, mr.1.2⟩, ⟨ml.2.1, hm, mr.2.1⟩, ?_, ?_⟩
    · intro t t1 t2
      simp only at t1 t2
      by_contra ht
      have := (hLm t).2 ⟨⟨by omega, by omega⟩, by simpa using ht, t2⟩
      rw [List.mem_append, List.mem_singleton] at this
      rcases this with h | h
      · have := (List.pairwise_append.1 hLs).2.2 t h l (by simp)
        omega
      · omega
    · intro t t1 t2
      simp only at t1 t2
      by_contra ht
      have := (hRm t).2 ⟨⟨by omega, by omega⟩, by simpa using ht, t1⟩
      rcases List.mem_cons.1 this with h | h
      · omega
      · have := (List.pairwise_cons.1 hRs).1 t h
        omega
  · intro l r ⟨⟨c1, c2, c3⟩, ⟨c4, c5, c6⟩, c7, c8⟩
    simp only at c1 c2 c3 c4 c5 c6 c7 c8
    constructor
    · rw [h1]
      have : L ≠ [] := by
        have hml : b0.left ≤ l ∨ (msk b0.left = true ∧ b0.left < mid) := by rcases hl with h | h <;> [left; right] <;> [omega; exact h]
        rcases hml with h | h
        · exact List.ne_nil_of_mem ((hLm l).2 ⟨⟨h, by omega⟩, c4, c1⟩)
        · exact List.ne_nil_of_mem ((hLm b0.left).2 ⟨⟨le_rfl, by omega⟩, h.1, h.2⟩)
      simp [List.isEmpty_iff, this]
    · rw [h5]
      have : R ≠ [] := List.ne_nil_of_mem ((hRm r).2 ⟨⟨by omega, c3⟩, c6, c2⟩)
      simp [List.isEmpty_iff, this]
  · rcases List.eq_nil_or_concat L with h | ⟨L', l, h⟩
    · rw [h] at h2
      simp only [List.getLast?_nil, Option.getD_none] at h2
      rw [h2]; exact hl
    · rw [List.concat_eq_append] at h
      rw [h] at h2
      simp only [List.getLast?_append, List.getLast?_singleton, Option.some_or, Option.getD_some] at h2
      have := (hLm l).1 (by rw [h]; simp)
      rw [h2]; exact Or.inr this.2

/-- Residual of a triplet -/
def res {F : Type} (o : Ops F) (s : Series) (x : Nat × Nat × Nat) : F := o.half (residual2 s x.1 x.2.1 x.2.2)

theorem fold_triplets {F : Type} (o : Ops F) (s : Series) (msk : Nat → Bool) (k : Nat) (hk : k + 2 ≤ s.nt) :
    let a := ((List.range k).map (· + 1)).foldl (midStep o s msk)
      { nb := ⟨0, 0, 0, 0, false, false⟩, n := 0, maxr := o.half 0, ssqr := o.half 0, tmaxr := 0 }
    (a.nb.left = 0 ∨ (msk a.nb.left = true ∧ a.nb.left ≤ k)) ∧
    ∃ tr : List (Nat × Nat × Nat), (∀ x, x ∈ tr ↔ Triplet msk s.nt x ∧ x.2.1 ≤ k) ∧
      tr.Pairwise (fun x y => x.2.1 < y.2.1) ∧ a.n = tr.length ∧
      a.ssqr = tr.foldl (fun acc x => o.add acc (o.sq (res o s x))) (o.half 0) ∧
      a.maxr = tr.foldl (fun acc x => if o.gt (res o s x) acc then res o s x else acc) (o.half 0) := by
  induction k with
  | zero =>
    refine ⟨Or.inl rfl, [], ?_, List.Pairwise.nil, rfl, rfl, rfl⟩
    intro x
    constructor
    · intro h; cases h
    · rintro ⟨⟨⟨h, _⟩, _⟩, h2⟩; omega
  | succ k ih =>
    obtain ⟨hl, tr, t1, t2, t3, t4, t5⟩ := ih (by omega)
    rw [List.range_succ, List.map_append, List.foldl_append]
    simp only [List.map_cons, List.map_nil, List.foldl_cons, List.foldl_nil]
    generalize ((List.range k).map (· + 1)).foldl (midStep o s msk)
      { nb := ⟨0, 0, 0, 0, false, false⟩, n := 0, maxr := o.half 0, ssqr := o.half 0, tmaxr := 0 } = a at *
    have hle : a.nb.left = 0 ∨ (msk a.nb.left = true ∧ a.nb.left ≤ k + 1) := hl.imp_right fun h => ⟨h.1, by omega⟩
    unfold midStep
    by_cases hm : msk (k + 1) = true
    · rw [if_neg (by simp [hm])]
      obtain ⟨g1, g2, g3⟩ := search_triplet msk (k + 1) s.nt (by omega) hm a.nb (hl.imp_right fun h => ⟨h.1, by omega⟩)
      simp only
      generalize search msk (k + 1) (from_ a.nb.left s.nt) { a.nb with vl := false, vr := false } = b at *
      have g3' : b.left = 0 ∨ (msk b.left = true ∧ b.left ≤ k + 1) := g3.imp_right fun h => ⟨h.1, by omega⟩
      by_cases hv : (!b.vl || !b.vr) = true
      · rw [if_pos hv]
        refine ⟨g3', tr, ?_, t2, t3, t4, t5⟩
        intro x
        rw [t1]
        refine and_congr_right fun hx => ⟨fun h => by omega, fun h => ?_⟩
        by_contra hc
        have he : x.2.1 = k + 1 := by omega
        obtain ⟨l, m, r⟩ := x
        simp only at he
        subst he
        have := g2 l r hx
        simp [this.1, this.2] at hv
      · rw [if_neg hv]
        simp only [Bool.or_eq_true, Bool.not_eq_true', not_or, Bool.not_eq_false] at hv
        have hT := g1 hv
        refine ⟨g3', tr ++ [(b.left, k + 1, b.right)], ?_, ?_, ?_, ?_, ?_⟩
        · intro x
          rw [List.mem_append, List.mem_singleton, t1]
          constructor
          · rintro (h | rfl)
            · exact ⟨h.1, by omega⟩
            · exact ⟨hT, le_rfl⟩
          · rintro ⟨h1, h2⟩
            by_cases hx : x.2.1 ≤ k
            · exact Or.inl ⟨h1, hx⟩
            · right
              obtain ⟨l, m, r⟩ := x
              have he : m = k + 1 := by simp only at hx h2; omega
              subst he
              obtain ⟨⟨p1, p2, p3⟩, ⟨p4, p5, p6⟩, p7, p8⟩ := h1
              obtain ⟨⟨q1, q2, q3⟩, ⟨q4, q5, q6⟩, q7, q8⟩ := hT
              simp only at *
              have el : l = b.left := by
                rcases Nat.lt_trichotomy l b.left with h | h | h
                · have := p7 b.left h q1; rw [q4] at this; cases this
                · exact h
                · have := q7 l h p1; rw [p4] at this; cases this
              have er : r = b.right := by
                rcases Nat.lt_trichotomy r b.right with h | h | h
                · have := q8 r p2 h; rw [p6] at this; cases this
                · exact h
                · have := p8 b.right q2 h; rw [q6] at this; cases this
              rw [el, er]
        · rw [List.pairwise_append]
          refine ⟨t2, List.pairwise_singleton _ _, ?_⟩
          intro x hx y hy
          rw [List.mem_singleton] at hy
          subst hy
          have := ((t1 x).1 hx).2
          simp only; omega
        · simp [t3]
        · simp only [List.foldl_append, List.foldl_cons, List.foldl_nil, ← t4]; rfl
        · simp only [List.foldl_append, List.foldl_cons, List.foldl_nil, ← t5]; rfl
    · rw [if_pos (by simp [hm])]
      refine ⟨hle, tr, ?_, t2, t3, t4, t5⟩
      intro x
      rw [t1]
      refine and_congr_right fun hx => ⟨fun h => by omega, fun h => ?_⟩
      by_contra hc
      have he : x.2.1 = k + 1 := by omega
      have := hx.2.1.2.1
      rw [he] at this
      exact hm this

/-- C10: a round of the outlier search looks at all triplets of consecutive valid observations, each once, in
order; it returns their number, the sum of their squared residuals and the largest residual. -/
theorem c10_round {F : Type} (o : Ops F) (s : Series) (msk : Nat → Bool) (hnt : 3 ≤ s.nt) :
    ∃ tr : List (Nat × Nat × Nat), (∀ x, x ∈ tr ↔ Triplet msk s.nt x) ∧
      tr.Pairwise (fun x y => x.2.1 < y.2.1) ∧ (round o s msk).n = tr.length ∧
      (round o s msk).ssqr =
        tr.foldl (fun acc x => o.add acc (o.sq (o.half (residual2 s x.1 x.2.1 x.2.2)))) (o.half 0) ∧
      (round o s msk).maxr =
        tr.foldl (fun acc x => if o.gt (o.half (residual2 s x.1 x.2.1 x.2.2)) acc then
          o.half (residual2 s x.1 x.2.1 x.2.2) else acc) (o.half 0) := by
  obtain ⟨_, tr, h1, h2, h3, h4, h5⟩ := fold_triplets o s msk (s.nt - 2) (by omega)
  refine ⟨tr, ?_, h2, h3, h4, h5⟩
  intro x
  rw [h1]
  refine ⟨And.left, fun h => ⟨h, ?_⟩⟩
  have := h.1
  omega

example : Triplet (fun t => t != 5 && t != 8) 9 (4, 6, 7) := by
  refine ⟨by decide, by decide, ?_, ?_⟩
  · intro t h1 h2
    simp only at h1 h2
    have : t = 5 := by omega
    subst this; decide
  · intro t h1 h2
    simp only at h1 h2
    omega

/-- The largest residual so far belongs to a triplet that contains the observation to be removed. -/
def Blamed {F : Type} (o : Ops F) (s : Series) (msk : Nat → Bool) (a : Round F) : Prop :=
  (a.maxr = o.half 0 ∧ a.ssqr = o.half 0) ∨
  ∃ l m r, (l < m ∧ m < r ∧ r < s.nt) ∧ (msk l = true ∧ msk m = true ∧ msk r = true) ∧
    a.maxr = o.half (residual2 s l m r) ∧ (a.tmaxr = l ∨ a.tmaxr = m ∨ a.tmaxr = r)

theorem round_blamed {F : Type} {o : Ops F} (ho : Ieee o) (s : Series) (msk : Nat → Bool) :
    Blamed o s msk (round o s msk) := by
  unfold round
  have step : ∀ (a : Round F) mid, mid < s.nt → Blamed o s msk a → Blamed o s msk (midStep o s msk a mid) := by
    intro a mid hmid h
    unfold midStep
    by_cases hm : msk mid = true
    · rw [if_neg (by simp [hm])]
      have hg := search_good msk mid s.nt (from_ a.nb.left s.nt) (fun t ht => mem_from ht)
        { a.nb with vl := false, vr := false } ⟨fun h => (by cases h), fun h => (by cases h)⟩
      simp only
      generalize search msk mid (from_ a.nb.left s.nt) { a.nb with vl := false, vr := false } = b at hg ⊢
      by_cases hv : (!b.vl || !b.vr) = true
      · rw [if_pos hv]; exact h
      · rw [if_neg hv]
        simp only [Bool.or_eq_true, Bool.not_eq_true', not_or, Bool.not_eq_false] at hv
        by_cases hgt : o.gt (o.half (residual2 s b.left mid b.right)) a.maxr = true
        · right
          have l1 := hg.1 hv.1
          have r1 := hg.2 hv.2
          simp only [hgt, if_true]
          refine ⟨b.left, mid, b.right, ⟨l1.2, r1.2.1, r1.2.2⟩, ⟨l1.1, hm, r1.1⟩, rfl, ?_⟩
          unfold blame
          split
          · exact Or.inl rfl
          · split
            · exact Or.inr (Or.inr rfl)
            · exact Or.inr (Or.inl rfl)
        · rcases h with ⟨h1, h2⟩ | h
          · left
            simp only [hgt, h2]
            rw [h1, ho.gt_zero] at hgt
            have : residual2 s b.left mid b.right = 0 := by omega
            rw [this, ho.sq_zero, ho.add_zero]
            exact ⟨by simpa using h1, rfl⟩
          · right
            simp only [hgt]
            exact h
    · rw [if_pos (by simp [hm])]
      exact h
  have : ∀ (l : List Nat) (a : Round F), (∀ t ∈ l, t < s.nt) → Blamed o s msk a →
      Blamed o s msk (l.foldl (midStep o s msk) a) := by
    intro l
    induction l with
    | nil => intro a _ h; exact h
    | cons t l ih =>
      intro a hl h
      exact ih _ (fun t ht => hl t (List.mem_cons_of_mem _ ht)) (step _ _ (hl t List.mem_cons_self) h)
  exact this _ _ (fun t ht => by have := mem_mids.1 ht; omega) (Or.inl ⟨rfl, rfl⟩)

/-- C10: an observation is only removed if it belongs to a triplet of then valid observations with the largest
residual of all triplets (see `c10_round`), and this residual exceeds the threshold relative to the root mean
squared residual of all triplets. -/
theorem c10_removed {F : Type} (o : Ops F) (ho : Ieee o) (s : Series) (above : F) (fuel : Nat) (rel : F) (n : Nat)
    (a a' : Outliers F) (h : outliers o s above fuel rel n a = some a') (t : Nat)
    (h0 : a.msk t = true) (h1 : a'.msk t = false) :
    ∃ msk : Nat → Bool, (∀ x, msk x = true → a.msk x = true) ∧ ∃ l m r, (l < m ∧ m < r ∧ r < s.nt) ∧
      (msk l = true ∧ msk m = true ∧ msk r = true) ∧ (t = l ∨ t = m ∨ t = r) ∧
      (round o s msk).maxr = o.half (residual2 s l m r) ∧ 2 ≤ (round o s msk).n ∧
      o.gt (o.div (o.half (residual2 s l m r)) (o.sqrt (o.divn (round o s msk).ssqr (round o s msk).n))) above = true := by
  induction fuel generalizing rel n a with
  | zero =>
    simp only [outliers] at h
    split at h
    · cases h
    · cases h; rw [h0] at h1; cases h1
  | succ fuel ih =>
    simp only [outliers] at h
    split at h
    · split at h
      · exact ih _ _ _ h h0
      · next hn =>
        split at h
        · next hg =>
          by_cases ht : t = (round o s a.msk).tmaxr
          · refine ⟨a.msk, fun _ h => h, ?_⟩
            rcases round_blamed ho s a.msk with ⟨b1, b2⟩ | ⟨l, m, r, b1, b2, b3, b4⟩
            · rw [b1, b2, ho.divn_zero _ (by omega), ho.sqrt_zero, ho.nan] at hg
              cases hg
            · rw [b3] at hg
              exact ⟨l, m, r, b1, b2, by rw [ht]; exact b4, b3, by omega, hg⟩
          · obtain ⟨msk, c1, c2⟩ := ih _ _ _ h (by simp only [if_neg ht]; exact h0)
            refine ⟨msk, ?_, c2⟩
            intro x hx
            have := c1 x hx
            simp only at this
            split at this
            · cases this
            · exact this
        · have := ih _ _ _ h
          exact this h0
    · cases h; rw [h0] at h1; cases h1

/-! ## C52 -/

/-- C52, partial: the residual is the deviation from the linear interpolation between the neighbours if
their difference is a multiple of the time between them. Missing: all other differences. -/
theorem c52_residual_partial (s : Series) (l m r : Nat) (h : s.ce l < s.ce r)
    (hdvd : (s.ce r - s.ce l) ∣ (s.dat r - s.dat l)) :
    (residual2 s l m r : ℚ) = 2 * |(s.dat m : ℚ) - interpolate (s.ce l) (s.dat l) (s.ce r) (s.dat r) (s.ce m)| := by
  unfold residual2
  rw [if_neg (by omega)]
  obtain ⟨k, hk⟩ := hdvd
  rw [hk, Int.mul_tdiv_cancel_left _ (by omega)]
  have hk' : ((s.dat r : ℚ) - s.dat l) = (s.ce r - s.ce l) * k := by exact_mod_cast hk
  have hne : ((s.ce r : ℚ) - s.ce l) ≠ 0 := by
    have : (s.ce l : ℚ) < s.ce r := by exact_mod_cast h
    intro h0; linarith
  unfold interpolate
  rw [hk', mul_div_cancel_left₀ _ hne]
  push_cast
  rw [Nat.cast_natAbs]
  push_cast
  congr 2
  ring

/-- C52, violated: if the neighbours differ by less than the number of days between them, the integer
division makes the slope 0; the residual is the difference to the left neighbour, whatever the trend. -/
theorem c52_slope_violated (s : Series) (l m r : Nat) (h : s.ce l < s.ce r)
    (hsmall : |s.dat r - s.dat l| < s.ce r - s.ce l) :
    residual2 s l m r = 2 * (s.dat m - s.dat l).natAbs ∧
    (s.ce m ≠ s.ce l → s.dat l ≠ s.dat r →
      interpolate (s.ce l) (s.dat l) (s.ce r) (s.dat r) (s.ce m) ≠ s.dat l) := by
  constructor
  · unfold residual2
    rw [if_neg (by omega)]
    have : Int.tdiv (s.dat r - s.dat l) (s.ce r - s.ce l) = 0 := by
      rw [abs_lt] at hsmall
      rcases le_or_gt 0 (s.dat r - s.dat l) with h0 | h0
      · rw [Int.tdiv_eq_ediv_of_nonneg h0]
        exact Int.ediv_eq_zero_of_lt h0 hsmall.2
      · have : s.dat r - s.dat l = -(s.dat l - s.dat r) := by ring
        rw [this, Int.neg_tdiv, Int.tdiv_eq_ediv_of_nonneg (by omega), Int.ediv_eq_zero_of_lt (by omega) (by omega)]
        rfl
    rw [this]
    simp
  · intro h1 h2 he
    unfold interpolate at he
    have hne : ((s.ce r : ℚ) - s.ce l) ≠ 0 := by
      have : (s.ce l : ℚ) < s.ce r := by exact_mod_cast h
      intro h0; linarith
    have h3 : ((s.dat r : ℚ) - s.dat l) / (s.ce r - s.ce l) * (s.ce m - s.ce l) = 0 := by linarith
    rcases mul_eq_zero.1 h3 with h4 | h4
    · rcases div_eq_zero_iff.1 h4 with h5 | h5
      · apply h2
        have : (s.dat r : ℚ) = s.dat l := by linarith
        exact_mod_cast this.symm
      · exact hne h5
    · apply h1
      have : (s.ce m : ℚ) = s.ce l := by linarith
      exact_mod_cast this

/-- Three observations on a line, 16 days apart: the residual is not 0. -/
def ramp : Series where
  nt := 3
  dat t := [100, 110, 120].getD t 0
  ce t := 16 * t

example : ramp.ce 0 < ramp.ce 2 ∧ |ramp.dat 2 - ramp.dat 0| < ramp.ce 2 - ramp.ce 0 ∧ ramp.ce 1 ≠ ramp.ce 0 ∧
    ramp.dat 0 ≠ ramp.dat 2 ∧ residual2 ramp 0 1 2 = 20 := by
  refine ⟨by decide, by decide, by decide, by decide, by decide⟩

/-- Three observations on a steep line: the residual is 0. -/
def steep : Series where
  nt := 3
  dat t := [100, 116, 132].getD t 0
  ce t := 16 * t

example : steep.ce 0 < steep.ce 2 ∧ (steep.ce 2 - steep.ce 0) ∣ (steep.dat 2 - steep.dat 0) ∧
    residual2 steep 0 1 2 = 0 := by
  refine ⟨by decide, by decide, by decide⟩

end Verif.Noise
