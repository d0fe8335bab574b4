import Verif.Imp.Model
import Verif.Imp.Spec
import Verif.Stats.Props
import Verif.Lsm.Lemmas
import Mathlib.Tactic.Linarith
import Mathlib.Tactic.Ring
import Mathlib.Tactic.FieldSimp

/-! # Texture and standardisation -/

namespace Verif.Imp

open Spec (InImage)
open Verif.Stats.Spec (mean moment)

theorem mem_window (h : Nat) (o : Int × Int) :
    o ∈ window h ↔ -(h : Int) ≤ o.1 ∧ o.1 ≤ h ∧ -(h : Int) ≤ o.2 ∧ o.2 ≤ h := Verif.Lsm.mem_offsets h o

theorem nodup_window (h : Nat) : (window h).Nodup := Verif.Lsm.nodup_offsets h

theorem inside_iff (nx ny : Nat) (i j : Int) : inside nx ny i j = true ↔ InImage nx ny i j := by
  unfold inside InImage
  simp only [Bool.not_eq_true', Bool.or_eq_false_iff, decide_eq_false_iff_not]
  omega

theorem update_loop (l : List ℚ) (k : Nat) (m v : ℚ) : l.foldl update ((k : ℚ), m, v) =
    (((Verif.Stats.varLoop l (k, m, v)).1 : ℚ), (Verif.Stats.varLoop l (k, m, v)).2) := by
  induction l generalizing k m v with
  | nil => rfl
  | cons x t ih =>
    rw [List.foldl_cons]
    unfold update Verif.Stats.varLoop
    by_cases h : k + 1 = 1
    · have h' : (k : ℚ) + 1 = 1 := by exact_mod_cast h
      simp only [h, h', if_true]
      exact_mod_cast ih 1 x v
    · have h' : ¬ (k : ℚ) + 1 = 1 := by exact_mod_cast h
      simp only [h, h', if_false]
      have := ih (k + 1) (Verif.Stats.varRec x m v ((k : ℚ) + 1)).1 (Verif.Stats.varRec x m v ((k : ℚ) + 1)).2
      push_cast at this ⊢
      exact this

theorem update_spec (l : List ℚ) (h : l ≠ []) : l.foldl update (0, 0, 0) = ((l.length : ℚ), mean l, moment 2 l) := by
  have := update_loop l 0 0 0
  rw [Nat.cast_zero] at this
  rw [this, Verif.Stats.c36_variance l h]

theorem mean_perm {l l' : List ℚ} (h : l.Perm l') : mean l = mean l' := by
  unfold mean
  rw [h.sum_eq, h.length_eq]

theorem moment_perm {l l' : List ℚ} (h : l.Perm l') : moment 2 l = moment 2 l' := by
  unfold moment
  rw [mean_perm h]
  exact (h.map _).sum_eq

theorem valuesAt_perm (d : Band) (nodata : ℚ) (h nx ny : Nat) (i j : Int) (px : List (Int × Int)) (hn : px.Nodup)
    (hm : ∀ q, q ∈ px ↔ InImage nx ny q.1 q.2 ∧ |q.1 - i| ≤ h ∧ |q.2 - j| ≤ h ∧ d q.1 q.2 ≠ nodata) :
    (valuesAt d nodata h nx ny i j).Perm (px.map fun q => d q.1 q.2) := by
  have e : valuesAt d nodata h nx ny i j = (((window h).map fun o => (i + o.1, j + o.2)).filter fun q =>
      inside nx ny q.1 q.2 && decide (d q.1 q.2 ≠ nodata)).map fun q => d q.1 q.2 := by
    unfold valuesAt
    generalize window h = l
    induction l with
    | nil => rfl
    | cons o t ih =>
      rw [List.filterMap_cons, List.map_cons, List.filter_cons]
      by_cases h1 : inside nx ny (i + o.1) (j + o.2) = true
      · by_cases h2 : d (i + o.1) (j + o.2) = nodata
        · simp [h1, h2]
          simpa using ih
        · simp [h1, h2]
          simpa using ih
      · simp only [h1]
        simpa using ih
  rw [e]
  apply List.Perm.map
  rw [List.perm_ext_iff_of_nodup]
  · intro q
    rw [List.mem_filter, List.mem_map, hm, Bool.and_eq_true, inside_iff, decide_eq_true_eq, abs_le, abs_le]
    constructor
    · rintro ⟨⟨o, ho, rfl⟩, h1, h2⟩
      rw [mem_window] at ho
      refine ⟨h1, ?_, ?_, h2⟩
      · show _ ≤ i + o.1 - i ∧ i + o.1 - i ≤ _
        omega
      · show _ ≤ j + o.2 - j ∧ j + o.2 - j ≤ _
        omega
    · rintro ⟨h1, h2, h3, h4⟩
      refine ⟨⟨(q.1 - i, q.2 - j), (mem_window _ _).2 ?_, ?_⟩, h1, h4⟩
      · show _ ≤ q.1 - i ∧ q.1 - i ≤ _ ∧ _ ≤ q.2 - j ∧ q.2 - j ≤ _
        omega
      · apply Prod.ext
        · show i + (q.1 - i) = q.1; omega
        · show j + (q.2 - j) = q.2; omega
  · apply List.Nodup.filter
    refine List.Nodup.map ?_ (nodup_window h)
    intro a b hab
    simp only [Prod.mk.injEq] at hab
    exact Prod.ext (by omega) (by omega)
  · exact hn

/-- The sample standard deviation of a list, with `sq` for the square root. -/
def sampleSd (sq : ℚ → ℚ) (l : List ℚ) : ℚ := sq (moment 2 l / (l.length - 1))

theorem larger_fold (l : List (Option ℚ)) (z : ℚ) :
    z ≤ l.foldl larger z ∧ (∀ s, some s ∈ l → s ≤ l.foldl larger z) ∧
      (l.foldl larger z = z ∨ some (l.foldl larger z) ∈ l) := by
  induction l generalizing z with
  | nil => simp
  | cons x t ih =>
    rw [List.foldl_cons]
    obtain ⟨h1, h2, h3⟩ := ih (larger z x)
    have hl : z ≤ larger z x ∧ (∀ s, x = some s → s ≤ larger z x) ∧ (larger z x = z ∨ x = some (larger z x)) := by
      unfold larger
      cases x with
      | none => simp
      | some s =>
        by_cases hs : s > z
        · simp only [hs, if_true]
          refine ⟨le_of_lt hs, ?_, by simp⟩
          rintro _ ⟨⟩; exact le_rfl
        · simp only [hs, if_false]
          refine ⟨le_rfl, ?_, by simp⟩
          rintro _ ⟨⟩; exact not_lt.1 hs
    refine ⟨hl.1.trans h1, ?_, ?_⟩
    · intro s hs
      rcases List.mem_cons.1 hs with hs | hs
      · exact (hl.2.1 s hs.symm).trans h1
      · exact h2 s hs
    · rcases h3 with h3 | h3
      · rw [h3]
        rcases hl.2.2 with h4 | h4
        · exact Or.inl h4
        · exact Or.inr (by rw [← h4]; exact List.mem_cons_self)
      · exact Or.inr (List.mem_cons_of_mem _ h3)

/-- C100: the texture of a pixel is the largest sample standard deviation, over the bands with at least two valid pixels in the
square window (inside of the image), of the valid values in the window; it is zero if there is no such
band. -/
theorem c100_texture (sq : ℚ → ℚ) (hsq : sq 0 = 0) (hpos : ∀ x, 0 ≤ sq x) (bands : List Band) (nodata : ℚ) (h nx ny : Nat) (i j : Int)
    (px : Band → List (Int × Int)) (hn : ∀ d ∈ bands, (px d).Nodup)
    (hm : ∀ d ∈ bands, ∀ q : Int × Int, q ∈ px d ↔ InImage nx ny q.1 q.2 ∧ |q.1 - i| ≤ h ∧ |q.2 - j| ≤ h ∧ d q.1 q.2 ≠ nodata) :
    let sds := (bands.filter fun d => 2 ≤ (px d).length).map fun d => sampleSd sq ((px d).map fun q => d q.1 q.2)
    (∀ s ∈ sds, s ≤ focalSd sq bands nodata h nx ny i j) ∧
    (focalSd sq bands nodata h nx ny i j = 0 ∧ (∀ s ∈ sds, s = 0) ∨ focalSd sq bands nodata h nx ny i j ∈ sds) := by
  intro sds
  have e : focalSd sq bands nodata h nx ny i j = (bands.map fun d =>
      standdev sq ((valuesAt d nodata h nx ny i j).foldl update (0, 0, 0)).2.2
        ((valuesAt d nodata h nx ny i j).foldl update (0, 0, 0)).1).foldl larger 0 := by
    unfold focalSd
    rw [List.foldl_map]
  have one : ∀ d ∈ bands, standdev sq ((valuesAt d nodata h nx ny i j).foldl update (0, 0, 0)).2.2
        ((valuesAt d nodata h nx ny i j).foldl update (0, 0, 0)).1 =
      if (px d).length = 0 then some 0 else if (px d).length = 1 then none
      else some (sampleSd sq ((px d).map fun q => d q.1 q.2)) := by
    intro d hd
    have hp := valuesAt_perm d nodata h nx ny i j (px d) (hn d hd) (hm d hd)
    have hlen : (valuesAt d nodata h nx ny i j).length = (px d).length := by rw [hp.length_eq, List.length_map]
    by_cases h0 : (px d).length = 0
    · have : valuesAt d nodata h nx ny i j = [] := List.length_eq_zero_iff.1 (hlen.trans h0)
      rw [this, if_pos h0]
      simp [standdev, hsq]
    · have hne : valuesAt d nodata h nx ny i j ≠ [] := by
        intro hc; rw [hc] at hlen; simp at hlen; omega
      rw [update_spec _ hne, if_neg h0]
      unfold standdev sampleSd
      rw [moment_perm hp, hlen, List.length_map]
      by_cases h1 : (px d).length = 1
      · simp [h1]
      · have h1' : ¬ ((px d).length : ℚ) = 1 := by exact_mod_cast h1
        simp only [h1, h1', if_false]
  rw [e, List.map_congr_left one]
  obtain ⟨h1, h2, h3⟩ := larger_fold (bands.map fun d => if (px d).length = 0 then some 0 else if (px d).length = 1 then none
      else some (sampleSd sq ((px d).map fun q => d q.1 q.2))) 0
  have up : ∀ s ∈ sds, s ≤ (bands.map fun d => if (px d).length = 0 then some 0 else if (px d).length = 1 then none
      else some (sampleSd sq ((px d).map fun q => d q.1 q.2))).foldl larger 0 := by
    intro s hs
    apply h2
    obtain ⟨d, hd, rfl⟩ := List.mem_map.1 hs
    rw [List.mem_filter, decide_eq_true_eq] at hd
    rw [List.mem_map]
    exact ⟨d, hd.1, by rw [if_neg (by omega), if_neg (by omega)]⟩
  have zero : ∀ s ∈ sds, 0 ≤ s := by
    intro s hs
    obtain ⟨d, hd, rfl⟩ := List.mem_map.1 hs
    exact hpos _
  refine ⟨up, ?_⟩
  rcases h3 with h3 | h3
  · left
    exact ⟨h3, fun s hs => le_antisymm (h3 ▸ up s hs) (zero s hs)⟩
  · obtain ⟨d, hd, he⟩ := List.mem_map.1 h3
    by_cases h0 : (px d).length = 0
    · rw [if_pos h0] at he
      have he' := (Option.some.inj he).symm
      left
      exact ⟨he', fun s hs => le_antisymm (he' ▸ up s hs) (zero s hs)⟩
    · rw [if_neg h0] at he
      by_cases h1 : (px d).length = 1
      · rw [if_pos h1] at he; simp at he
      · rw [if_neg h1] at he
        right
        rw [← Option.some.inj he]
        exact List.mem_map.2 ⟨d, List.mem_filter.2 ⟨hd, by rw [decide_eq_true_eq]; omega⟩, rfl⟩

theorem sum_sub_const (l : List ℚ) (m s : ℚ) : (l.map fun x => (x - m) / s).sum = (l.sum - l.length * m) / s := by
  induction l with
  | nil => simp
  | cons x t ih => simp only [List.map_cons, List.sum_cons, ih, List.length_cons]; push_cast; ring

theorem sum_sq_div (l : List ℚ) (m s : ℚ) : (l.map fun x => ((x - m) / s) ^ 2).sum = (l.map fun x => (x - m) ^ 2).sum / s ^ 2 := by
  induction l with
  | nil => simp
  | cons x t ih => rw [List.map_cons, List.sum_cons, ih, List.map_cons, List.sum_cons, add_div, div_pow]

/-- C100: an image with at least two valid values and standard deviation `σ` greater than zero is standardised: every valid
value `x` becomes (x - mean) / σ, nodata values are kept, and the new values have the mean 0 and the
sample variance 1. -/
theorem c100_standard_partial (sq : ℚ → ℚ) (nodata σ : ℚ) (l : List ℚ) (hl : 2 ≤ (l.filter fun x => x ≠ nodata).length)
    (hs : sampleSd sq (l.filter fun x => x ≠ nodata) = σ) (hpos : 0 < σ)
    (hroot : σ ^ 2 = moment 2 (l.filter fun x => x ≠ nodata) / ((l.filter fun x => x ≠ nodata).length - 1)) :
    let z := (l.filter fun x => x ≠ nodata).map fun x => (x - mean (l.filter fun x => x ≠ nodata)) / σ
    standardize sq nodata l = (l.map fun x =>
      if x = nodata then some nodata else some ((x - mean (l.filter fun x => x ≠ nodata)) / σ)) ∧
    mean z = 0 ∧ moment 2 z / (z.length - 1) = 1 := by
  intro z
  set v := l.filter fun x => x ≠ nodata with hv
  have hne : v ≠ [] := by intro hc; rw [hc] at hl; simp at hl
  have hn : (0 : ℚ) < v.length := by exact_mod_cast List.length_pos_iff.2 hne
  have h1 : (v.length : ℚ) - 1 ≠ 0 := by
    have : (2 : ℚ) ≤ v.length := by exact_mod_cast hl
    intro hc; linarith
  have hz : mean z = 0 := by
    show (v.map fun x => (x - mean v) / σ).sum / _ = 0
    rw [sum_sub_const]
    have : v.sum - v.length * mean v = 0 := by
      unfold mean
      field_simp
      ring
    rw [this]; simp
  refine ⟨?_, hz, ?_⟩
  · unfold standardize
    have : (l.filter (· ≠ nodata)).foldl update (0, 0, 0) = ((v.length : ℚ), mean v, moment 2 v) := update_spec v hne
    rw [this]
    apply List.map_congr_left
    intro x _
    by_cases hx : x = nodata
    · rw [if_pos hx, if_pos hx, hx]
    · rw [if_neg hx, if_neg hx]
      have hsd : standdev sq (moment 2 v) (v.length : ℚ) = some σ := by
        unfold standdev
        rw [if_neg (by intro hc; apply h1; rw [hc]; ring)]
        unfold sampleSd at hs
        rw [hs]
      simp only [hsd]
      rw [if_neg (ne_of_gt hpos)]
  · have hlen : z.length = v.length := List.length_map _
    have hm : moment 2 z = moment 2 v / σ ^ 2 := by
      unfold moment
      rw [hz]
      show ((v.map fun x => (x - mean v) / σ).map fun x => (x - 0) ^ 2).sum = _
      rw [List.map_map, ← sum_sq_div]
      congr 1
      apply List.map_congr_left
      intro x _
      simp
    rw [hlen, hm, div_right_comm, ← hroot]
    exact div_self (by positivity)

/-- C100, violated: if all valid values of an image are equal, standardising divides by zero at every valid
pixel. -/
theorem c100_constant_violated (sq : ℚ → ℚ) (hsq : sq 0 = 0) (nodata c : ℚ) (hc : c ≠ nodata) (l : List ℚ)
    (hl : ∀ x ∈ l, x = nodata ∨ x = c) :
    standardize sq nodata l = l.map fun x => if x = nodata then some nodata else none := by
  unfold standardize
  apply List.map_congr_left
  intro x hx
  by_cases hxn : x = nodata
  · rw [if_pos hxn, if_pos hxn, hxn]
  · rw [if_neg hxn, if_neg hxn]
    have hne : l.filter (· ≠ nodata) ≠ [] := List.ne_nil_of_mem (List.mem_filter.2 ⟨hx, by simp [hxn]⟩)
    have hall : ∀ y ∈ l.filter (· ≠ nodata), y = c := by
      intro y hy
      rw [List.mem_filter] at hy
      rcases hl y hy.1 with h | h
      · simp [h] at hy
      · exact h
    have hrep : l.filter (· ≠ nodata) = List.replicate (l.filter (· ≠ nodata)).length c :=
      List.eq_replicate_of_mem hall
    have hp : (0 : ℚ) < (l.filter (· ≠ nodata)).length := by exact_mod_cast List.length_pos_iff.2 hne
    rw [update_spec _ hne]
    have hmean : mean (l.filter (· ≠ nodata)) = c := by
      unfold mean
      rw [hrep, List.sum_replicate, List.length_replicate, nsmul_eq_mul]
      field_simp
    have hmom : moment 2 (l.filter (· ≠ nodata)) = 0 := by
      unfold moment
      rw [hmean]
      apply List.sum_eq_zero
      intro y hy
      obtain ⟨w, hw, rfl⟩ := List.mem_map.1 hy
      rw [hall w hw]; ring
    rw [hmom]
    unfold standdev
    by_cases h1 : ((l.filter (· ≠ nodata)).length : ℚ) = 1
    · simp only [h1, if_true]
    · simp only [h1, if_false, zero_div, hsq, if_true]

end Verif.Imp
