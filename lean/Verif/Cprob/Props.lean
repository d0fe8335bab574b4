import Verif.Cprob.Quantile
import Verif.Buffer.Fill
import Verif.Float

/-!
# Cloud probability over land (C254) and water (C255), the cloud mask (C256) -/

namespace Verif.Cprob

/-- What is used of the rounding to float. -/
structure Rounding (rf : ℚ → ℚ) : Prop where
  mono : Monotone rf
  idem : ∀ y, rf (rf y) = rf y
  short : ∀ k : ℤ, |k| ≤ 32768 → rf k = k

theorem Rounding.zero {rf : ℚ → ℚ} (h : Rounding rf) : rf 0 = 0 := by simpa using h.short 0 (by norm_num)

theorem Rounding.nonneg {rf : ℚ → ℚ} (h : Rounding rf) {y : ℚ} (hy : 0 ≤ y) : 0 ≤ rf y := by
  rw [← h.zero]; exact h.mono hy

theorem Rounding.nonpos {rf : ℚ → ℚ} (h : Rounding rf) {y : ℚ} (hy : y ≤ 0) : rf y ≤ 0 := by
  rw [← h.zero]; exact h.mono hy

theorem lo_pos : 0 ≤ lo := by unfold lo; norm_num
theorem lo_hi : lo ≤ hi := by unfold lo hi; norm_num
theorem hi_pos : 0 ≤ hi := by unfold hi; norm_num
theorem hi_one : hi ≤ 1 := by unfold hi; norm_num

theorem coefB_pos {rf : ℚ → ℚ} (h : Rounding rf) (s : Scene) : 800 ≤ coefB rf s := by
  have hm := c253_monotone rf h.mono lo hi (reference s) lo_pos lo_hi hi_one
  have e : rf 800 = 800 := by simpa using h.short 800 (by norm_num)
  rw [← e]
  refine h.mono ?_
  unfold highTemp lowTemp
  linarith

/-- C254: the probability over land is not negative, it is 0 for nodata. -/
theorem c254_range (rf : ℚ → ℚ) (h : Rounding rf) (s : Scene) (hv : ∀ p, 0 ≤ s.var p) (p : Nat) :
    0 ≤ landProb rf s p ∧ (s.off p = true → landProb rf s p = 0) := by
  unfold landProb
  refine ⟨?_, fun ho => by rw [if_pos ho]⟩
  split
  · exact le_refl _
  · apply h.nonneg
    have : (0 : ℚ) ≤ s.var p := by exact_mod_cast hv p
    apply mul_nonneg _ (by positivity)
    split
    · exact le_refl _
    · next hn => exact not_lt.1 hn

/-- C254: a colder and more variable pixel is at least as probable a cloud. -/
theorem c254_colder (rf : ℚ → ℚ) (h : Rounding rf) (s : Scene) (p q : Nat) (hp : s.off p = false) (hq : s.off q = false)
    (ht : s.temp q ≤ s.temp p) (h0 : 0 ≤ s.var p) (hv : s.var p ≤ s.var q) : landProb rf s p ≤ landProb rf s q := by
  have hB := coefB_pos h s
  have ht' : (s.temp q : ℚ) ≤ s.temp p := by exact_mod_cast ht
  have hv0 : (0 : ℚ) ≤ s.var p := by exact_mod_cast h0
  have hv' : (s.var p : ℚ) ≤ s.var q := by exact_mod_cast hv
  have k : rf (rf (coefA rf s - s.temp p) / coefB rf s) ≤ rf (rf (coefA rf s - s.temp q) / coefB rf s) :=
    h.mono (div_le_div_of_nonneg_right (h.mono (by linarith)) (by linarith))
  unfold landProb
  rw [if_neg (by rw [hp]; decide), if_neg (by rw [hq]; decide)]
  apply h.mono
  generalize rf (rf (coefA rf s - s.temp p) / coefB rf s) = a at *
  generalize rf (rf (coefA rf s - s.temp q) / coefB rf s) = b at *
  have k1 : (if a < 0 then 0 else a) ≤ (if b < 0 then 0 else b) := by split <;> split <;> linarith
  have k2 : 0 ≤ (if b < 0 then 0 else b) := by split <;> linarith
  exact mul_le_mul k1 (by linarith) (by positivity) k2

/-- C254: a pixel that is at least 4 K warmer than the warm quantile has probability 0. -/
theorem c254_warm (rf : ℚ → ℚ) (h : Rounding rf) (s : Scene) (p : Nat) (ht : |s.temp p| ≤ 32768)
    (hw : highTemp rf s + 400 ≤ s.temp p) : landProb rf s p = 0 := by
  have hB := coefB_pos h s
  have hA : coefA rf s ≤ s.temp p := by
    rw [← h.short _ ht]; exact h.mono hw
  have k : rf (rf (coefA rf s - s.temp p) / coefB rf s) ≤ 0 :=
    h.nonpos (div_nonpos_of_nonpos_of_nonneg (h.nonpos (by linarith)) (by linarith))
  unfold landProb
  split
  · rfl
  · have e : (if rf (rf (coefA rf s - s.temp p) / coefB rf s) < 0 then 0 else rf (rf (coefA rf s - s.temp p) / coefB rf s))
        = 0 := by
      split
      · rfl
      · next hn => exact le_antisymm k (not_lt.1 hn)
    simp only [e, zero_mul, h.zero]

/-- Few values exceed a threshold that is not below the quantile. -/
theorem share_above (rf : ℚ → ℚ) (h : Rounding rf) (f c : ℚ) (hc : 0 ≤ c) (x : List ℚ) (hx : x ≠ [])
    (hr : ∀ v ∈ x, rf v = v) (h0 : 0 ≤ f) (h1 : f ≤ 1) :
    ((x.filter fun v => decide (rf (quantile rf f x + c) < v)).length : ℚ) < (1 - f) * ((x.length : ℚ) - 1) + 1 := by
  have a := (c253_share rf h.mono f x hx hr h0 h1).1
  have hq : quantile rf f x ≤ rf (quantile rf f x + c) := by
    have e : rf (quantile rf f x) = quantile rf f x := by rw [quantile_eq, h.idem]
    calc quantile rf f x = rf (quantile rf f x) := e.symm
      _ ≤ _ := h.mono (by linarith)
  generalize quantile rf f x = q at *
  generalize rf (q + c) = t at *
  have b : (x.filter fun v => decide (t < v)).length + (x.filter fun v => decide (v ≤ q)).length ≤ x.length := by
    rw [← List.countP_eq_length_filter, ← List.countP_eq_length_filter,
      List.length_eq_countP_add_countP (fun v => decide (v ≤ q)) (l := x), Nat.add_comm]
    apply Nat.add_le_add_left
    apply List.countP_mono_left
    intro v _ hv
    simp only [decide_eq_true_eq, decide_not, Bool.not_eq_true', decide_eq_false_iff_not, not_le] at hv ⊢
    linarith
  have b' : ((x.filter fun v => decide (t < v)).length : ℚ) + (x.filter fun v => decide (v ≤ q)).length ≤ x.length := by
    exact_mod_cast b
  linarith

theorem pick_length (s : Scene) (m : Nat → Bool) (v : Nat → ℚ) : (pick s m v).length = number s m := by
  unfold pick number; rw [List.length_map]

theorem pick_filter (s : Scene) (m : Nat → Bool) (v : Nat → ℚ) (t : ℚ) :
    ((pick s m v).filter fun y => decide (t < y)).length = number s fun p => m p && decide (t < v p) := by
  unfold pick number
  rw [List.filter_map, List.length_map, List.filter_filter]
  congr 1
  apply List.filter_congr
  intro p _
  exact Bool.and_comm _ _

theorem landProb_rep {rf : ℚ → ℚ} (h : Rounding rf) (s : Scene) (p : Nat) : rf (landProb rf s p) = landProb rf s p := by
  unfold landProb
  split
  · exact h.zero
  · exact h.idem _

theorem waterProb_rep {rf : ℚ → ℚ} (h : Rounding rf) (s : Scene) (p : Nat) :
    rf (waterProb rf s p) = waterProb rf s p := by
  unfold waterProb
  split
  · split
    · exact h.zero
    · exact h.idem _
  · exact h.zero

theorem filter_length_mono (x : List ℚ) (f g : ℚ → Bool) (h : ∀ v, f v = true → g v = true) :
    (x.filter f).length ≤ (x.filter g).length := by
  rw [← List.countP_eq_length_filter, ← List.countP_eq_length_filter]
  exact List.countP_mono_left fun v _ => h v

theorem filter_length_split (x : List ℚ) (q : ℚ) :
    (x.filter fun v => decide (v < q)).length + (x.filter fun v => decide (q ≤ v)).length = x.length := by
  induction x with
  | nil => rfl
  | cons a x ih =>
    by_cases h : a < q
    · rw [List.filter_cons_of_pos (by simpa using h), List.filter_cons_of_neg (by simpa using h), List.length_cons,
        List.length_cons]
      omega
    · rw [List.filter_cons_of_neg (by simpa using h), List.filter_cons_of_pos (by simpa using not_lt.1 h), List.length_cons,
        List.length_cons]
      omega

theorem land_reference (s : Scene) (hl : (1 : ℚ) / 10 ≤ 100 * ((((List.range s.nc).filter s.lnd).length : ℕ) : ℚ) /
    ((((List.range s.nc).filter fun p => !s.off p).length : ℕ) : ℚ)) : reference s = pick s s.lnd fun p => s.temp p :=
  if_pos hl

theorem pick_count (s : Scene) (m : Nat → Bool) (v : Nat → ℚ) (f : ℚ → Bool) :
    ((pick s m v).filter f).length = ((List.range s.nc).filter fun p => m p && f (v p)).length := by
  unfold pick
  rw [List.filter_map, List.length_map, List.filter_filter]
  congr 1
  apply List.filter_congr
  intro p _
  rw [Bool.and_comm]
  rfl

/-- C254, in exact arithmetic: if the clear land is at least one thousandth of the image and at least 17.5 percent of it are
not warmer than `T`, a pixel that is not 4 K colder than `T` gets no more than the probability of its variability. -/
theorem c254_mild (s : Scene) (p : Nat) (T : ℚ) (hv : 0 ≤ s.var p)
    (hl : (1 : ℚ) / 10 ≤ 100 * ((((List.range s.nc).filter s.lnd).length : ℕ) : ℚ) /
      ((((List.range s.nc).filter fun p => !s.off p).length : ℕ) : ℚ))
    (hT : 0.1750001 * (((((List.range s.nc).filter s.lnd).length : ℕ) : ℚ) - 1) + 1 ≤
      ((((List.range s.nc).filter fun p => s.lnd p && decide ((s.temp p : ℚ) ≤ T)).length : ℕ) : ℚ))
    (hp : T - 400 ≤ s.temp p) : landProb id s p ≤ (s.var p : ℚ) / 10000 := by
  have hR : Rounding id := ⟨fun _ _ h => h, fun _ => rfl, fun _ _ => rfl⟩
  have hB := coefB_pos hR s
  have hn : pick s s.lnd (fun p => (s.temp p : ℚ)) ≠ [] := by
    intro e
    have h0 := pick_length s s.lnd (fun p => (s.temp p : ℚ))
    rw [e] at h0
    have h1 : ((List.range s.nc).filter s.lnd).length = 0 := h0.symm
    rw [h1] at hl
    norm_num at hl
  have hlow : lowTemp id s ≤ T := by
    by_contra hc
    have k := (c253_share id hR.mono lo _ hn (fun _ _ => rfl) lo_pos (le_trans lo_hi hi_one)).2
    have hq : quantile id lo (pick s s.lnd fun p => (s.temp p : ℚ)) = lowTemp id s := by
      unfold lowTemp; rw [land_reference s hl]
    rw [hq] at k
    have a := filter_length_split (pick s s.lnd fun p => (s.temp p : ℚ)) (lowTemp id s)
    have b := filter_length_mono (pick s s.lnd fun p => (s.temp p : ℚ)) (fun v => decide (v ≤ T))
      (fun v => decide (v < lowTemp id s)) (fun v h => by
        simp only [decide_eq_true_eq] at h ⊢
        exact lt_of_le_of_lt h (not_le.1 hc))
    rw [pick_count] at b
    have hlen := pick_length s s.lnd (fun p => (s.temp p : ℚ))
    have hnum : (number s s.lnd : ℚ) = ((((List.range s.nc).filter s.lnd).length : ℕ) : ℚ) := rfl
    rw [hlen, hnum] at k
    rw [hlen] at a
    have a' : ((((pick s s.lnd fun p => (s.temp p : ℚ)).filter fun v => decide (v < lowTemp id s)).length : ℕ) : ℚ) +
        ((((pick s s.lnd fun p => (s.temp p : ℚ)).filter fun v => decide (lowTemp id s ≤ v)).length : ℕ) : ℚ) =
        ((((List.range s.nc).filter s.lnd).length : ℕ) : ℚ) := by exact_mod_cast a
    have b' : ((((List.range s.nc).filter fun p => s.lnd p && decide ((s.temp p : ℚ) ≤ T)).length : ℕ) : ℚ) ≤
        ((((pick s s.lnd fun p => (s.temp p : ℚ)).filter fun v => decide (v < lowTemp id s)).length : ℕ) : ℚ) := by
      exact_mod_cast b
    have hone : (1 : ℚ) ≤ ((((List.range s.nc).filter s.lnd).length : ℕ) : ℚ) := by
      have : 0 < (pick s s.lnd fun p => (s.temp p : ℚ)).length := List.length_pos_iff.2 hn
      rw [hlen] at this
      exact_mod_cast this
    have hlo : lo * (((((List.range s.nc).filter s.lnd).length : ℕ) : ℚ) - 1) ≤
        0.1750001 * (((((List.range s.nc).filter s.lnd).length : ℕ) : ℚ) - 1) :=
      mul_le_mul_of_nonneg_right (by unfold lo; norm_num) (by linarith)
    nlinarith [k, a', b', hT, hlo]
  have hv' : (0 : ℚ) ≤ (s.var p : ℚ) / 10000 := by
    have : (0 : ℚ) ≤ s.var p := by exact_mod_cast hv
    positivity
  have ht : (coefA id s - s.temp p) / coefB id s ≤ 1 := by
    rw [div_le_one (by linarith)]
    show highTemp id s + 400 - s.temp p ≤ highTemp id s + 400 - lowTemp id s + 400
    linarith
  unfold landProb
  split
  · exact hv'
  · show (if (coefA id s - s.temp p) / coefB id s < 0 then 0 else (coefA id s - s.temp p) / coefB id s) *
      ((s.var p : ℚ) / 10000) ≤ _
    split
    · rw [zero_mul]; exact hv'
    · calc _ ≤ 1 * ((s.var p : ℚ) / 10000) := mul_le_mul_of_nonneg_right ht hv'
        _ = _ := one_mul _

/-- C254, in exact arithmetic: if the clear land is at least one thousandth of the image and at most 17.49999 percent of it
are colder than `T`, a pixel that is 4 K colder than `T` gets at least the probability of its variability. -/
theorem c254_cold (s : Scene) (p : Nat) (T : ℚ) (hv : 0 ≤ s.var p) (ho : s.off p = false)
    (hl : (1 : ℚ) / 10 ≤ 100 * ((((List.range s.nc).filter s.lnd).length : ℕ) : ℚ) /
      ((((List.range s.nc).filter fun p => !s.off p).length : ℕ) : ℚ))
    (hT : ((((List.range s.nc).filter fun p => s.lnd p && decide ((s.temp p : ℚ) < T)).length : ℕ) : ℚ) ≤
      0.1749999 * (((((List.range s.nc).filter s.lnd).length : ℕ) : ℚ) - 1))
    (hp : s.temp p ≤ T - 400) : (s.var p : ℚ) / 10000 ≤ landProb id s p := by
  have hR : Rounding id := ⟨fun _ _ h => h, fun _ => rfl, fun _ _ => rfl⟩
  have hB := coefB_pos hR s
  have hn : pick s s.lnd (fun p => (s.temp p : ℚ)) ≠ [] := by
    intro e
    have h0 := pick_length s s.lnd (fun p => (s.temp p : ℚ))
    rw [e] at h0
    have h1 : ((List.range s.nc).filter s.lnd).length = 0 := h0.symm
    rw [h1] at hl
    norm_num at hl
  have hlen := pick_length s s.lnd (fun p => (s.temp p : ℚ))
  have hone : (1 : ℚ) ≤ ((((List.range s.nc).filter s.lnd).length : ℕ) : ℚ) := by
    have : 0 < (pick s s.lnd fun p => (s.temp p : ℚ)).length := List.length_pos_iff.2 hn
    rw [hlen] at this
    exact_mod_cast this
  have hlow : T ≤ lowTemp id s := by
    by_contra hc
    have k := (c253_share id hR.mono lo _ hn (fun _ _ => rfl) lo_pos (le_trans lo_hi hi_one)).1
    have hq : quantile id lo (pick s s.lnd fun p => (s.temp p : ℚ)) = lowTemp id s := by
      unfold lowTemp; rw [land_reference s hl]
    rw [hq] at k
    have b := filter_length_mono (pick s s.lnd fun p => (s.temp p : ℚ)) (fun v => decide (v ≤ lowTemp id s))
      (fun v => decide (v < T)) (fun v h => by
        simp only [decide_eq_true_eq] at h ⊢
        exact lt_of_le_of_lt h (not_le.1 hc))
    rw [pick_count s s.lnd _ (fun v => decide (v < T))] at b
    have hnum : (number s s.lnd : ℚ) = ((((List.range s.nc).filter s.lnd).length : ℕ) : ℚ) := rfl
    rw [hlen, hnum] at k
    have b' : ((((pick s s.lnd fun p => (s.temp p : ℚ)).filter fun v => decide (v ≤ lowTemp id s)).length : ℕ) : ℚ) ≤
        ((((List.range s.nc).filter fun p => s.lnd p && decide ((s.temp p : ℚ) < T)).length : ℕ) : ℚ) := by
      exact_mod_cast b
    have hlo : 0.1749999 * (((((List.range s.nc).filter s.lnd).length : ℕ) : ℚ) - 1) ≤
        lo * (((((List.range s.nc).filter s.lnd).length : ℕ) : ℚ) - 1) :=
      mul_le_mul_of_nonneg_right (by unfold lo; norm_num) (by linarith)
    linarith
  have hv' : (0 : ℚ) ≤ (s.var p : ℚ) / 10000 := by
    have : (0 : ℚ) ≤ s.var p := by exact_mod_cast hv
    positivity
  have ht : 1 ≤ (coefA id s - s.temp p) / coefB id s := by
    rw [one_le_div (by linarith)]
    show highTemp id s + 400 - lowTemp id s + 400 ≤ highTemp id s + 400 - s.temp p
    linarith
  unfold landProb
  rw [if_neg (by rw [ho]; decide)]
  show _ ≤ (if (coefA id s - s.temp p) / coefB id s < 0 then 0 else (coefA id s - s.temp p) / coefB id s) *
      ((s.var p : ℚ) / 10000)
  rw [if_neg (by linarith)]
  calc (s.var p : ℚ) / 10000 = 1 * ((s.var p : ℚ) / 10000) := (one_mul _).symm
    _ ≤ _ := mul_le_mul_of_nonneg_right ht hv'

/-- C254: at most 17.5 percent of the clear land pixels (and one) exceed the threshold, whatever the scene. -/
theorem c254_share (rf : ℚ → ℚ) (h : Rounding rf) (cldprob : ℚ) (hc : 0 ≤ cldprob) (s : Scene)
    (hn : 1 ≤ ((List.range s.nc).filter s.lnd).length) :
    ((((List.range s.nc).filter fun p => s.lnd p && decide (landThreshold rf cldprob s < landProb rf s p)).length : ℕ) : ℚ) <
      0.1750001 * ((((List.range s.nc).filter s.lnd).length : ℚ) - 1) + 1 := by
  have hl := pick_length s s.lnd (landProb rf s)
  have k := share_above rf h hi cldprob hc (pick s s.lnd (landProb rf s))
    (fun e => by rw [e] at hl; have : number s s.lnd = 0 := hl.symm; unfold number at this; omega)
    (fun v hv => by
      obtain ⟨p, -, rfl⟩ := List.mem_map.1 hv
      exact landProb_rep h s p) hi_pos hi_one
  rw [pick_filter, hl] at k
  have hn' : (1 : ℚ) ≤ (number s s.lnd : ℕ) := by exact_mod_cast hn
  refine lt_of_lt_of_le k ?_
  show (1 - hi) * ((number s s.lnd : ℚ) - 1) + 1 ≤ 0.1750001 * ((number s s.lnd : ℚ) - 1) + 1
  have : 1 - hi ≤ 0.1750001 := by unfold hi; norm_num
  nlinarith

/-- C254: the threshold is at least the parameter, and equal to it if there is no clear land. -/
theorem c254_threshold (rf : ℚ → ℚ) (h : Rounding rf) (cldprob : ℚ) (hc : rf cldprob = cldprob) (s : Scene)
    (hv : ∀ p, 0 ≤ s.var p) :
    cldprob ≤ landThreshold rf cldprob s ∧
      ((∀ p < s.nc, s.lnd p = false) → landThreshold rf cldprob s = cldprob) := by
  constructor
  · unfold landThreshold
    have k : 0 ≤ quantile rf hi (pick s s.lnd (landProb rf s)) := by
      by_cases hx : pick s s.lnd (landProb rf s) = []
      · rw [hx, (c253_single rf hi 0).2, h.zero]
      · obtain ⟨⟨v, hv1, hv2⟩, -⟩ := c253_range rf h.mono hi _ hx (fun v hv => by
          obtain ⟨p, -, rfl⟩ := List.mem_map.1 hv
          exact landProb_rep h s p) hi_pos hi_one
        obtain ⟨p, -, rfl⟩ := List.mem_map.1 hv1
        exact le_trans (c254_range rf h s hv p).1 hv2
    calc cldprob = rf cldprob := hc.symm
      _ ≤ _ := h.mono (by linarith)
  · intro hl
    have e : pick s s.lnd (landProb rf s) = [] := by
      unfold pick
      rw [List.map_eq_nil_iff, List.filter_eq_nil_iff]
      intro p hp
      rw [hl p (List.mem_range.1 hp)]
      decide
    unfold landThreshold
    rw [e, (c253_single rf hi 0).2, h.zero, zero_add, hc]

/-- C255: at most 17.5 percent of the clear water pixels (and one) exceed the threshold. -/
theorem c255_share (rf : ℚ → ℚ) (h : Rounding rf) (cldprob : ℚ) (hc : 0 ≤ cldprob) (s : Scene)
    (hn : 1 ≤ ((List.range s.nc).filter fun p => s.water p && decide (s.sw2 p ≤ 300)).length) :
    ((((List.range s.nc).filter fun p => (s.water p && decide (s.sw2 p ≤ 300)) &&
        decide (waterThreshold rf cldprob s < waterProb rf s p)).length : ℕ) : ℚ) <
      0.1750001 * ((((List.range s.nc).filter fun p => s.water p && decide (s.sw2 p ≤ 300)).length : ℚ) - 1) + 1 := by
  have hn1 : 0 < number s (clearWater s) := hn
  have hl := pick_length s (clearWater s) (waterProb rf s)
  have k := share_above rf h hi cldprob hc (pick s (clearWater s) (waterProb rf s))
    (fun e => by rw [e] at hl; have : number s (clearWater s) = 0 := hl.symm; omega)
    (fun v hv => by
      obtain ⟨p, -, rfl⟩ := List.mem_map.1 hv
      exact waterProb_rep h s p) hi_pos hi_one
  rw [pick_filter, hl] at k
  have e : waterThreshold rf cldprob s = rf (quantile rf hi (pick s (clearWater s) (waterProb rf s)) + cldprob) := by
    unfold waterThreshold; rw [if_pos hn1]
  rw [← e] at k
  have hn' : (1 : ℚ) ≤ (number s (clearWater s) : ℕ) := by exact_mod_cast hn1
  refine lt_of_lt_of_le k ?_
  show (1 - hi) * ((number s (clearWater s) : ℚ) - 1) + 1 ≤ 0.1750001 * ((number s (clearWater s) : ℚ) - 1) + 1
  have : 1 - hi ≤ 0.1750001 := by unfold hi; norm_num
  nlinarith

/-- C255: without clear water, no pixel exceeds the threshold. -/
theorem c255_no_water (rf : ℚ → ℚ) (cldprob : ℚ) (s : Scene) (hn : ∀ p < s.nc, s.water p = true → 300 < s.sw2 p) (p : Nat) :
    ¬ waterThreshold rf cldprob s < waterProb rf s p := by
  have e : number s (clearWater s) = 0 := by
    unfold number
    rw [List.length_eq_zero_iff, List.filter_eq_nil_iff]
    intro q hq
    have := hn q (List.mem_range.1 hq)
    unfold clearWater
    rw [Bool.and_eq_true, decide_eq_true_eq]
    rintro ⟨h1, h2⟩
    have := this h1
    omega
  unfold waterThreshold waterProb
  rw [e, if_neg (by omega), if_neg (by omega)]
  norm_num

/-- C255: among pixels whose short-wave infrared reflectance is not negative and that are not warmer than clear water, a
colder and brighter one is at least as probable a cloud. -/
theorem c255_colder (rf : ℚ → ℚ) (h : Rounding rf) (s : Scene) (p q : Nat) (hp : s.off p = false) (hq : s.off q = false)
    (ht : s.temp q ≤ s.temp p) (hw : (s.temp p : ℚ) ≤ waterTemp rf s) (h0 : 0 ≤ s.sw1 p) (hv : s.sw1 p ≤ s.sw1 q) :
    waterProb rf s p ≤ waterProb rf s q := by
  have ht' : (s.temp q : ℚ) ≤ s.temp p := by exact_mod_cast ht
  have hv0 : (0 : ℚ) ≤ s.sw1 p := by exact_mod_cast h0
  have hv' : (s.sw1 p : ℚ) ≤ s.sw1 q := by exact_mod_cast hv
  have k : rf (rf (waterTemp rf s - s.temp p) / 400) ≤ rf (rf (waterTemp rf s - s.temp q) / 400) :=
    h.mono (div_le_div_of_nonneg_right (h.mono (by linarith)) (by norm_num))
  have k0 : 0 ≤ rf (rf (waterTemp rf s - s.temp p) / 400) :=
    h.nonneg (div_nonneg (h.nonneg (by linarith)) (by norm_num))
  have b : rf ((s.sw1 p : ℚ) / 1100) ≤ rf ((s.sw1 q : ℚ) / 1100) := h.mono (by linarith)
  have b0 : 0 ≤ rf ((s.sw1 p : ℚ) / 1100) := h.nonneg (by positivity)
  unfold waterProb
  split
  · rw [if_neg (by rw [hp]; decide), if_neg (by rw [hq]; decide)]
    apply h.mono
    generalize rf ((s.sw1 p : ℚ) / 1100) = a at *
    generalize rf ((s.sw1 q : ℚ) / 1100) = c at *
    have k1 : (if a > 1 then 1 else a) ≤ (if c > 1 then 1 else c) := by split <;> split <;> linarith
    have k2 : 0 ≤ (if a > 1 then 1 else a) := by split <;> linarith
    exact mul_le_mul k k1 k2 (le_trans k0 k)
  · exact le_refl _

/-! ## The mask -/

theorem raw_eq (rf : ℚ → ℚ) (c : ℚ) (s : Scene) (p : Nat) (hp : p < s.nc) :
    raw rf c s p = true ↔ s.brt p = true ∧
      ((s.pcp p = true ∧ s.water p = false ∧ landThreshold rf c s < landProb rf s p) ∨
       (s.pcp p = true ∧ s.water p = true ∧ waterThreshold rf c s < waterProb rf s p) ∨
       (s.temp p : ℚ) < lowTemp rf s - 3500 ∨ s.sat p = true) := by
  unfold raw Cloud.cloudy
  simp only [Int.toNat_natCast, Bool.and_eq_true, Bool.or_eq_true, decide_eq_true_eq, Bool.not_eq_true', gt_iff_lt]
  constructor
  · rintro ⟨-, ((⟨⟨a, b⟩, c⟩ | ⟨⟨a, b⟩, c⟩) | d) | e, f⟩
    · exact ⟨f, Or.inl ⟨a, b, c⟩⟩
    · exact ⟨f, Or.inr (Or.inl ⟨a, b, c⟩)⟩
    · exact ⟨f, Or.inr (Or.inr (Or.inl d))⟩
    · exact ⟨f, Or.inr (Or.inr (Or.inr e))⟩
  · rintro ⟨f, h⟩
    refine ⟨⟨by omega, by omega⟩, ?_, f⟩
    rcases h with ⟨a, b, c⟩ | ⟨a, b, c⟩ | d | e
    · exact Or.inl (Or.inl (Or.inl ⟨⟨a, b⟩, c⟩))
    · exact Or.inl (Or.inl (Or.inr ⟨⟨a, b⟩, c⟩))
    · exact Or.inl (Or.inr d)
    · exact Or.inr e

/-- C256: all bright pixels that are potential clouds above the threshold of their surface, more than 35 K colder than the
cold quantile, or saturated, are clouds. Every other cloud pixel has at least five cloud pixels around it. -/
theorem c256_mask (rf : ℚ → ℚ) (c : ℚ) (s : Scene) (nx ny : Nat) (order : List (Int × Int)) (p : Nat) (hp : p < s.nc) :
    let detected := s.brt p = true ∧
      ((s.pcp p = true ∧ s.water p = false ∧ landThreshold rf c s < landProb rf s p) ∨
       (s.pcp p = true ∧ s.water p = true ∧ waterThreshold rf c s < waterProb rf s p) ∨
       (s.temp p : ℚ) < lowTemp rf s - 3500 ∨ s.sat p = true)
    (detected → clouds rf c s nx ny order p = true) ∧
    (clouds rf c s nx ny order p = true → detected ∨
      ∃ q ∈ order, (p : Int) = q.1 * nx + q.2 ∧ Buffer.Spec.Surrounded nx ny (clouds rf c s nx ny order) 5 q) := by
  intro detected
  constructor
  · intro hd
    exact Buffer.fold_le nx ny order _ _ ((raw_eq rf c s p hp).2 hd)
  · intro hc
    by_cases hr : raw rf c s p = true
    · exact Or.inl ((raw_eq rf c s p hp).1 hr)
    · exact Or.inr (Buffer.c15_reason_partial nx ny (raw rf c s) order p (by simpa using hr) hc)

/-- C256: dark pixels are clouds only where they are surrounded. In particular there are no clouds if no pixel is bright. -/
theorem c256_dark (rf : ℚ → ℚ) (c : ℚ) (s : Scene) (nx ny : Nat) (order : List (Int × Int))
    (hb : ∀ p < s.nc, s.brt p = false) (k : Int) : clouds rf c s nx ny order k = false := by
  have h0 : raw rf c s = fun _ => false := by
    funext k
    unfold raw Cloud.cloudy
    by_cases hk : 0 ≤ k ∧ k < s.nc
    · rw [hb k.toNat (by omega), Bool.and_false, Bool.and_false]
    · rw [decide_eq_false hk, Bool.false_and]
  unfold clouds
  rw [h0]
  induction order with
  | nil => rfl
  | cons q qs ih =>
    have : Buffer.fillPixel nx ny (fun _ => false) q = fun _ => false := by
      unfold Buffer.fillPixel Buffer.count
      rw [if_neg (by simp), if_neg]
      simp
    show Buffer.majorfill nx ny qs (Buffer.fillPixel nx ny (fun _ => false) q) k = false
    rw [this]
    exact ih

/-- The scene with `c` added to all temperatures. -/
def warmer (s : Scene) (c : Int) : Scene := { s with temp := fun p => s.temp p + c }

theorem pick_warmer (s : Scene) (c : Int) (m : Nat → Bool) :
    pick (warmer s c) m (fun p => ((warmer s c).temp p : ℚ)) = (pick s m fun p => (s.temp p : ℚ)).map fun v => 1 * v + (c : ℚ) := by
  unfold pick warmer
  rw [List.map_map]
  apply List.map_congr_left
  intro p _
  simp

theorem reference_ne (s : Scene) (hc : ∃ p < s.nc, s.clr p = true) : reference s ≠ [] := by
  unfold reference
  split
  · next h =>
    intro e
    have : number s s.lnd = 0 := by rw [← pick_length s s.lnd fun p => (s.temp p : ℚ), e]; rfl
    rw [this] at h
    norm_num at h
  · intro e
    obtain ⟨p, hp, h⟩ := hc
    unfold pick at e
    rw [List.map_eq_nil_iff, List.filter_eq_nil_iff] at e
    exact e p (List.mem_range.2 hp) h

theorem quantile_shift (f : ℚ) (c : Int) (x : List ℚ) (hx : x ≠ []) (h0 : 0 ≤ f) (h1 : f ≤ 1) :
    quantile id f (x.map fun v => 1 * v + (c : ℚ)) = quantile id f x + c := by
  rw [c253_affine 1 c (by norm_num) f x hx h0 h1, one_mul]

/-- C256: in exact arithmetic, the mask does not depend on the calibration of temperature: if all temperatures are higher by
the same amount, the same pixels are clouds. -/
theorem c256_calibration (c : ℚ) (s : Scene) (nx ny : Nat) (order : List (Int × Int)) (d : Int)
    (hc : ∃ p < s.nc, s.clr p = true) :
    clouds id c { s with temp := fun p => s.temp p + d } nx ny order = clouds id c s nx ny order := by
  show clouds id c (warmer s d) nx ny order = clouds id c s nx ny order
  have er : reference (warmer s d) = (reference s).map fun v => 1 * v + (d : ℚ) := by
    unfold reference
    show (if 100 * (number s s.lnd : ℚ) / (number s fun p => !s.off p) ≥ 1 / 10 then _ else _) = _
    split
    · exact pick_warmer s d s.lnd
    · exact pick_warmer s d s.clr
  have el : lowTemp id (warmer s d) = lowTemp id s + d := by
    unfold lowTemp
    rw [er, quantile_shift lo d _ (reference_ne s hc) lo_pos (le_trans lo_hi hi_one)]
  have eh : highTemp id (warmer s d) = highTemp id s + d := by
    unfold highTemp
    rw [er, quantile_shift hi d _ (reference_ne s hc) hi_pos hi_one]
  have eB : coefB id (warmer s d) = coefB id s := by
    unfold coefB; rw [eh, el]; simp only [id]; ring
  have ep : landProb id (warmer s d) = landProb id s := by
    funext p
    unfold landProb
    rw [eB]
    have : coefA id (warmer s d) - ((warmer s d).temp p : ℚ) = coefA id s - s.temp p := by
      unfold coefA; rw [eh]; simp only [id, warmer]; push_cast; ring
    rw [this]
    rfl
  have et : landThreshold id c (warmer s d) = landThreshold id c s := by
    unfold landThreshold; rw [ep]; rfl
  have ew : waterProb id (warmer s d) = waterProb id s := by
    funext p
    unfold waterProb
    show (if number s (clearWater s) > 0 then _ else _) = _
    split
    · next hn =>
      have hne : pick s (clearWater s) (fun p => (s.temp p : ℚ)) ≠ [] := by
        intro e
        have := pick_length s (clearWater s) fun p => (s.temp p : ℚ)
        rw [e] at this
        have : number s (clearWater s) = 0 := this.symm
        omega
      have e1 : waterTemp id (warmer s d) = waterTemp id s + d := by
        unfold waterTemp
        show quantile id hi (pick (warmer s d) (clearWater s) _) = _
        rw [pick_warmer, quantile_shift hi d _ hne hi_pos hi_one]
      have : waterTemp id (warmer s d) - ((warmer s d).temp p : ℚ) = waterTemp id s - s.temp p := by
        rw [e1]; simp only [warmer]; push_cast; ring
      rw [this]
      rfl
    · rfl
  have ewt : waterThreshold id c (warmer s d) = waterThreshold id c s := by
    unfold waterThreshold; rw [ew]; rfl
  have eraw : raw id c (warmer s d) = raw id c s := by
    funext k
    unfold raw Cloud.cloudy
    rw [ep, et, ew, ewt, el]
    have : decide ((((warmer s d).temp k.toNat : ℤ) : ℚ) < lowTemp id s + d - 3500) =
        decide ((s.temp k.toNat : ℚ) < lowTemp id s - 3500) := by
      apply decide_eq_decide.2
      simp only [warmer]
      push_cast
      constructor <;> intro h <;> linarith
    rw [this]
    rfl
  unfold clouds
  rw [eraw]

/-- C256: all detected pixels are counted, and the cover is at most 100 percent unless nodata pixels are filled. -/
theorem c256_cover (rf : ℚ → ℚ) (h : Rounding rf) (c : ℚ) (s : Scene) (nx ny : Nat) (order : List (Int × Int))
    (hv : ∀ p < s.nc, clouds rf c s nx ny order p = true → s.off p = false) :
    ((List.range s.nc).filter fun p : Nat => raw rf c s p).length ≤ (cover rf c s nx ny order).1 ∧
    0 ≤ (cover rf c s nx ny order).2 ∧ (cover rf c s nx ny order).2 ≤ 100 ∧
    ((cover rf c s nx ny order).2 ≠ 0 → (cover rf c s nx ny order).1 ≠ 0) := by
  have hle : number s (fun p => clouds rf c s nx ny order p) ≤ number s fun p => !s.off p := by
    unfold number
    rw [← List.countP_eq_length_filter, ← List.countP_eq_length_filter]
    apply List.countP_mono_left
    intro p hp hc
    rw [hv p (List.mem_range.1 hp) hc]
    rfl
  have hle' : (number s (fun p => clouds rf c s nx ny order p) : ℚ) ≤ (number s fun p => !s.off p : ℕ) := by
    exact_mod_cast hle
  refine ⟨?_, h.nonneg (by positivity), ?_, ?_⟩
  · show _ ≤ number s _
    unfold number
    rw [← List.countP_eq_length_filter, ← List.countP_eq_length_filter]
    apply List.countP_mono_left
    intro p _ hc
    exact Buffer.fold_le nx ny order _ _ hc
  · have e : rf 100 = 100 := by simpa using h.short 100 (by norm_num)
    rw [← e]
    refine h.mono (div_le_of_le_mul₀ (by positivity) (by norm_num) ?_)
    linarith
  · intro h1 h2
    apply h1
    show rf (100 * (((cover rf c s nx ny order).1 : ℕ) : ℚ) / _) = 0
    rw [h2, Nat.cast_zero, mul_zero, zero_div, h.zero]

/-! ## An image -/

/-- Six pixels: clear land, a cold cloud over land, clear water. -/
def ex : Scene :=
  { nc := 6
    temp := fun p => [2900, 2910, 2890, -1500, 2950, 2960].getD p 0
    sw1 := fun p => [1500, 1500, 1500, 3000, 100, 100].getD p 0
    sw2 := fun p => [900, 900, 900, 2500, 50, 60].getD p 0
    var := fun p => [3000, 3100, 3200, 9500, 3000, 3000].getD p 0
    off := fun _ => false
    water := fun p => decide (p = 4 ∨ p = 5)
    sat := fun _ => false
    pcp := fun p => decide (p = 3)
    clr := fun p => decide (p ≠ 3)
    lnd := fun p => decide (p < 3)
    brt := fun p => decide (p < 4) }

example : Rounding id := ⟨fun _ _ h => h, fun _ => rfl, fun _ _ => rfl⟩

/-- The float nearest to a number, a rounding that is not trivial. -/
example : ∃ rf : ℚ → ℚ, ∀ x, Float.Nearest 24 x (rf x) := Float.exists_round 24 (by norm_num)

/-- The cloud is found, and nothing else. -/
example : (List.range 6).map (fun p : Nat => raw id (1 / 4) ex p) = [false, false, false, true, false, false] := by
  decide +kernel

example : 1 ≤ ((List.range ex.nc).filter ex.lnd).length ∧
    1 ≤ ((List.range ex.nc).filter fun p => ex.water p && decide (ex.sw2 p ≤ 300)).length ∧
    (∃ p < ex.nc, ex.clr p = true) ∧ highTemp id ex + 400 > ex.temp 0 := by
  refine ⟨by decide, by decide, ⟨0, by decide, by decide⟩, ?_⟩
  decide +kernel

/-- The hypotheses of `c254_mild` (pixel 0, `T = 2910`) and of `c254_cold` (pixel 3, `T = 2890`). -/
example : (1 : ℚ) / 10 ≤ 100 * ((((List.range ex.nc).filter ex.lnd).length : ℕ) : ℚ) /
      ((((List.range ex.nc).filter fun p => !ex.off p).length : ℕ) : ℚ) ∧
    0.1750001 * (((((List.range ex.nc).filter ex.lnd).length : ℕ) : ℚ) - 1) + 1 ≤
      ((((List.range ex.nc).filter fun p => ex.lnd p && decide ((ex.temp p : ℚ) ≤ 2910)).length : ℕ) : ℚ) ∧
    ((((List.range ex.nc).filter fun p => ex.lnd p && decide ((ex.temp p : ℚ) < 2890)).length : ℕ) : ℚ) ≤
      0.1749999 * (((((List.range ex.nc).filter ex.lnd).length : ℕ) : ℚ) - 1) ∧
    (2910 - 400 : ℚ) ≤ ex.temp 0 ∧ (ex.temp 3 : ℚ) ≤ 2890 - 400 ∧ ex.off 3 = false := by
  decide +kernel

end Verif.Cprob
