import Mathlib.Algebra.BigOperators.Group.Finset.Basic
import Mathlib.Algebra.Order.BigOperators.Group.Finset
import Mathlib.Algebra.Order.Floor.Ring
import Mathlib.Data.Int.Interval
import Mathlib.Data.List.Nodup
import Mathlib.Tactic.FieldSimp
import Mathlib.Tactic.Linarith
import Mathlib.Tactic.NormNum
import Mathlib.Tactic.Ring
import Verif.Dem.Model
import Verif.Index.Lemmas
import Verif.Qai.Lemmas

/-!
# Properties C281 to C283: smoothed and averaged elevation, aerosol flag
-/

namespace Verif.Dem

/-! ## Specification -/

/-- An elevation that differs from nodata by more than the tolerance for float numbers. -/
def Spec.Known (nodata v : ℚ) : Prop := max |v| |nodata| / 8388608 < |v - nodata|

instance (nodata v : ℚ) : Decidable (Spec.Known nodata v) := by unfold Spec.Known; infer_instance

/-- The pixels of an image with known elevation, up to `k` rows and columns from row `i` and column `j`. -/
noncomputable def Spec.around (nx ny : Nat) (k : Int) (nodata : ℚ) (dem : Int → Int → ℚ) (i j : Int) : Finset (Int × Int) :=
  (Finset.Ico (0 : Int) ny ×ˢ Finset.Ico (0 : Int) nx).filter fun n =>
    |n.1 - i| ≤ k ∧ |n.2 - j| ≤ k ∧ Spec.Known nodata (dem n.1 n.2)

/-- First fine row (or column) of the coarse row (or column) `e`. -/
noncomputable def Spec.start (R r : ℚ) (e : Int) : Int := ⌊(e : ℚ) * R / r⌋

/-- The usable fine pixels of the coarse cell in row `e` and column `f`. -/
noncomputable def Spec.members (R r : ℚ) (fnx fny : Int) (off : Int → Int → Bool) (e f : Int) : Finset (Int × Int) :=
  (Finset.Ico 0 fny ×ˢ Finset.Ico 0 fnx).filter fun n =>
    (Spec.start R r e ≤ n.1 ∧ n.1 < Spec.start R r e + ⌊R / r⌋) ∧
    (Spec.start R r f ≤ n.2 ∧ n.2 < Spec.start R r f + ⌊R / r⌋) ∧ off n.1 n.2 = false

/-! ## Lists and sums -/

theorem fequal_iff (nodata v : ℚ) : fequal v nodata = false ↔ Spec.Known nodata v := by
  unfold fequal Spec.Known
  have e : (if |nodata| > |v| then |nodata| else |v|) = max |v| |nodata| := by
    rw [max_def]
    by_cases h : |v| ≤ |nodata|
    · rw [if_pos h]
      split
      · rfl
      · linarith
    · rw [if_neg h, if_neg (by linarith)]
  rw [e, decide_eq_false_iff_not, not_le]
  constructor <;> (intro h; linarith)

theorem square_mem (a0 b0 : Int) (n : Nat) (c : Int × Int) :
    c ∈ ((List.range n).flatMap fun (a : Nat) => (List.range n).map fun (b : Nat) => (a0 + (a : Int), b0 + (b : Int))) ↔
      (a0 ≤ c.1 ∧ c.1 < a0 + n) ∧ (b0 ≤ c.2 ∧ c.2 < b0 + n) := by
  rw [List.mem_flatMap]
  constructor
  · rintro ⟨a, ha, h⟩
    rw [List.mem_map] at h
    obtain ⟨b, hb, rfl⟩ := h
    rw [List.mem_range] at ha hb
    dsimp only
    omega
  · rintro ⟨⟨h1, h2⟩, h3, h4⟩
    refine ⟨(c.1 - a0).toNat, List.mem_range.2 (by omega), List.mem_map.2 ⟨(c.2 - b0).toNat, List.mem_range.2 (by omega), ?_⟩⟩
    apply Prod.ext
    · show a0 + ((c.1 - a0).toNat : Int) = c.1; omega
    · show b0 + ((c.2 - b0).toNat : Int) = c.2; omega

theorem square_nodup (a0 b0 : Int) (n : Nat) :
    ((List.range n).flatMap fun (a : Nat) => (List.range n).map fun (b : Nat) => (a0 + (a : Int), b0 + (b : Int))).Nodup := by
  rw [List.nodup_flatMap]
  constructor
  · intro a _
    refine (List.nodup_range).map ?_
    intro b b' h
    have := congrArg Prod.snd h
    dsimp only at this
    omega
  · refine (List.nodup_range (n := n)).imp ?_
    intro a a' hne
    rw [Function.onFun, List.disjoint_left]
    intro c h1 h2
    rw [List.mem_map] at h1 h2
    obtain ⟨b, _, rfl⟩ := h1
    obtain ⟨b', _, h⟩ := h2
    have := congrArg Prod.fst h
    dsimp only at this
    omega

theorem window_eq (k : Nat) (i j : Int) : window k i j = (List.range (2 * k + 1)).flatMap fun (a : Nat) =>
    (List.range (2 * k + 1)).map fun (b : Nat) => ((i - k) + (a : Int), (j - k) + (b : Int)) := by
  unfold window
  congr 1
  funext a
  congr 1
  funext b
  apply Prod.ext
  · show i + ((a : Int) - k) = (i - k) + a; omega
  · show j + ((b : Int) - k) = (j - k) + b; omega

theorem fold_sum {α : Type} (f : ℚ × Nat → α → ℚ × Nat) (p : α → Bool) (v : α → ℚ)
    (hf : ∀ s a, f s a = if p a then (s.1 + v a, s.2 + 1) else s) (l : List α) (s : ℚ × Nat) :
    l.foldl f s = (s.1 + ((l.filter p).map v).sum, s.2 + (l.filter p).length) := by
  induction l generalizing s with
  | nil => simp
  | cons a l ih =>
    rw [List.foldl_cons, ih, hf]
    by_cases h : p a = true
    · rw [if_pos h, List.filter_cons_of_pos h]
      simp only [List.map_cons, List.sum_cons, List.length_cons]
      apply Prod.ext
      · show _ + _ + _ = _; ring
      · show _ + 1 + _ = _; omega
    · rw [if_neg h, List.filter_cons_of_neg h]

theorem sum_finset (l : List (Int × Int)) (hl : l.Nodup) (S : Finset (Int × Int)) (h : ∀ c, c ∈ l ↔ c ∈ S) (v : Int × Int → ℚ) :
    (l.map v).sum = ∑ c ∈ S, v c ∧ l.length = S.card := by
  have e : l.toFinset = S := by
    ext c
    rw [List.mem_toFinset, h]
  constructor
  · rw [← e, List.sum_toFinset _ hl]
  · rw [← e, List.toFinset_card_of_nodup hl]

/-- The mean is between the bounds. -/
theorem mean_range (S : Finset (Int × Int)) (hS : S.Nonempty) (v : Int × Int → ℚ) (lo hi : ℚ)
    (h : ∀ c ∈ S, lo ≤ v c ∧ v c ≤ hi) : lo ≤ (∑ c ∈ S, v c) / S.card ∧ (∑ c ∈ S, v c) / S.card ≤ hi := by
  have hc : (0 : ℚ) < S.card := by exact_mod_cast Finset.card_pos.2 hS
  have h1 := Finset.card_nsmul_le_sum S v lo fun c hc => (h c hc).1
  have h2 := Finset.sum_le_card_nsmul S v hi fun c hc => (h c hc).2
  rw [nsmul_eq_mul] at h1 h2
  constructor
  · rw [le_div_iff₀ hc]; linarith
  · rw [div_le_iff₀ hc]; linarith

/-! ## C281: smoothing -/

theorem smoothed_fold (nx ny k : Nat) (nodata : ℚ) (dem : Int → Int → ℚ) (i j : Int) :
    (window k i j).foldl (add nx ny nodata dem) (0, 0) =
      (∑ n ∈ Spec.around nx ny k nodata dem i j, dem n.1 n.2, (Spec.around nx ny k nodata dem i j).card) := by
  rw [fold_sum (add nx ny nodata dem)
    (fun n => decide ((0 ≤ n.1 ∧ n.1 < (ny : Int)) ∧ (0 ≤ n.2 ∧ n.2 < (nx : Int)) ∧ Spec.Known nodata (dem n.1 n.2))) (fun n => dem n.1 n.2)]
  · have hm : ∀ c, c ∈ (window k i j).filter (fun n => decide ((0 ≤ n.1 ∧ n.1 < (ny : Int)) ∧ (0 ≤ n.2 ∧ n.2 < (nx : Int)) ∧
        Spec.Known nodata (dem n.1 n.2))) ↔ c ∈ Spec.around nx ny k nodata dem i j := by
      intro c
      unfold Spec.around
      rw [List.mem_filter, window_eq, square_mem, Finset.mem_filter, Finset.mem_product, Finset.mem_Ico, Finset.mem_Ico,
        decide_eq_true_eq, abs_le, abs_le]
      constructor
      · rintro ⟨⟨a, b⟩, c1, c2, c3⟩
        exact ⟨⟨c1, c2⟩, by omega, by omega, c3⟩
      · rintro ⟨⟨c1, c2⟩, a, b, c3⟩
        exact ⟨⟨by omega, by omega⟩, c1, c2, c3⟩
    have hn := ((window_eq k i j) ▸ square_nodup (i - k) (j - k) (2 * k + 1) : (window k i j).Nodup)
    obtain ⟨h1, h2⟩ := sum_finset _ (hn.filter _) _ hm fun n => dem n.1 n.2
    rw [h1, h2]
    simp
  · intro s n
    unfold add
    by_cases h : n.1 > (ny : Int) - 1 ∨ n.1 < 0 ∨ n.2 > (nx : Int) - 1 ∨ n.2 < 0
    · rw [if_pos h, if_neg]
      rw [decide_eq_true_eq]
      rintro ⟨h1, h2, _⟩
      omega
    · rw [if_neg h]
      by_cases hq : fequal (dem n.1 n.2) nodata = true
      · rw [if_pos hq, if_neg]
        rw [decide_eq_true_eq]
        rintro ⟨_, _, h3⟩
        rw [← fequal_iff, hq] at h3
        cases h3
      · rw [if_neg hq, if_pos]
        rw [decide_eq_true_eq, ← fequal_iff]
        refine ⟨by omega, by omega, by simpa using hq⟩

/-- C281: elevations of 30 m or more resolution are not changed, and pixels without elevation stay so. -/
theorem c281_kept (nx ny : Nat) (res nodata : ℚ) (dem : Int → Int → ℚ) (i j : Int) (h : 30 ≤ res ∨ dem i j = nodata) :
    smooth nx ny res nodata dem i j = dem i j := by
  unfold smooth
  split
  · rfl
  · rcases h with h | h
    · contradiction
    · unfold smoothed
      rw [if_pos h, h]

/-- C281: at a finer resolution, the smoothed elevation of each pixel is the mean of the known elevations in the
square around it that reaches 30 m to each side, counted in whole pixels, and cut at the border of the image. -/
theorem c281_mean (nx ny : Nat) (res nodata : ℚ) (h0 : 0 < res) (h30 : res < 30) (dem : Int → Int → ℚ) (i j : Int)
    (hi : 0 ≤ i ∧ i < ny) (hj : 0 ≤ j ∧ j < nx) (hk : Spec.Known nodata (dem i j)) :
    (i, j) ∈ Spec.around nx ny ⌊30 / res⌋ nodata dem i j ∧
    smooth nx ny res nodata dem i j = (∑ n ∈ Spec.around nx ny ⌊30 / res⌋ nodata dem i j, dem n.1 n.2) /
      (Spec.around nx ny ⌊30 / res⌋ nodata dem i j).card := by
  have hq : (0 : ℚ) ≤ 30 / res := by positivity
  have hf : 0 ≤ ⌊30 / res⌋ := Int.floor_nonneg.2 hq
  have ht : ((Index.truncQ (30 / res)).toNat : Int) = ⌊30 / res⌋ := by
    rw [Index.truncQ_eq, if_pos hq, Int.toNat_of_nonneg hf]
  have hm : (i, j) ∈ Spec.around nx ny ⌊30 / res⌋ nodata dem i j := by
    unfold Spec.around
    rw [Finset.mem_filter, Finset.mem_product, Finset.mem_Ico, Finset.mem_Ico]
    refine ⟨⟨hi, hj⟩, ?_, ?_, hk⟩ <;> simpa using hf
  refine ⟨hm, ?_⟩
  unfold smooth
  rw [if_neg (by linarith)]
  unfold smoothed
  have hne : dem i j ≠ nodata := by
    intro h
    unfold Spec.Known at hk
    rw [h, sub_self, abs_zero] at hk
    have : 0 ≤ max |nodata| |nodata| / 8388608 := by positivity
    linarith
  rw [if_neg hne]
  dsimp only
  rw [smoothed_fold, ht, if_pos (Finset.card_pos.2 ⟨_, hm⟩)]

/-- C281: smoothing does not leave the range of the known elevations of the image. -/
theorem c281_range (nx ny : Nat) (res nodata : ℚ) (h0 : 0 < res) (dem : Int → Int → ℚ) (lo hi : ℚ)
    (hr : ∀ a b : Int, 0 ≤ a ∧ a < ny → 0 ≤ b ∧ b < nx → Spec.Known nodata (dem a b) → lo ≤ dem a b ∧ dem a b ≤ hi)
    (i j : Int) (hi' : 0 ≤ i ∧ i < ny) (hj : 0 ≤ j ∧ j < nx) (hk : Spec.Known nodata (dem i j)) :
    lo ≤ smooth nx ny res nodata dem i j ∧ smooth nx ny res nodata dem i j ≤ hi := by
  by_cases h30 : res < 30
  · obtain ⟨hm, e⟩ := c281_mean nx ny res nodata h0 h30 dem i j hi' hj hk
    rw [e]
    apply mean_range _ ⟨_, hm⟩
    intro c hc
    unfold Spec.around at hc
    rw [Finset.mem_filter, Finset.mem_product, Finset.mem_Ico, Finset.mem_Ico] at hc
    exact hr c.1 c.2 hc.1.1 hc.1.2 hc.2.2.2
  · rw [c281_kept nx ny res nodata dem i j (Or.inl (not_lt.1 h30))]
    exact hr i j hi' hj hk

/-- Two rows with 20 m resolution, one pixel without elevation. -/
example : smooth 2 2 20 (-9999) (fun i j => if i = 1 ∧ j = 1 then -9999 else 100 + 30 * i + 60 * j) 0 0 = 130 := by
  decide +kernel

/-! ## C282: average elevation of coarse cells -/

theorem cell_fold (R r : ℚ) (hr : 0 < r) (hR : 0 < R) (fnx fny : Int) (off : Int → Int → Bool) (dem : Int → Int → Nat) (e f : Int)
    (he : 0 ≤ e) (hf : 0 ≤ f) :
    (cellPixels ⌊R / r⌋.toNat (Spec.start R r e) (Spec.start R r f)).foldl (addCell ⟨fnx, fny, r⟩ off dem) (0, 0) =
      (∑ n ∈ Spec.members R r fnx fny off e f, (dem n.1 n.2 : ℚ), (Spec.members R r fnx fny off e f).card) := by
  have hs : ∀ e : Int, 0 ≤ e → 0 ≤ Spec.start R r e := by
    intro e he
    unfold Spec.start
    rw [Int.floor_nonneg]
    have : (0 : ℚ) ≤ e := by exact_mod_cast he
    positivity
  have hz : ((⌊R / r⌋.toNat : Nat) : Int) = ⌊R / r⌋ := Int.toNat_of_nonneg (Int.floor_nonneg.2 (by positivity))
  have se := hs e he
  have sf := hs f hf
  rw [fold_sum (addCell ⟨fnx, fny, r⟩ off dem) (fun n => decide (n.1 < fny ∧ n.2 < fnx ∧ off n.1 n.2 = false))
    (fun n => (dem n.1 n.2 : ℚ))]
  · have hm : ∀ c, c ∈ (cellPixels ⌊R / r⌋.toNat (Spec.start R r e) (Spec.start R r f)).filter
        (fun n => decide (n.1 < fny ∧ n.2 < fnx ∧ off n.1 n.2 = false)) ↔ c ∈ Spec.members R r fnx fny off e f := by
      intro c
      unfold Spec.members cellPixels
      rw [List.mem_filter, square_mem, Finset.mem_filter, Finset.mem_product, Finset.mem_Ico, Finset.mem_Ico, decide_eq_true_eq, hz]
      constructor
      · rintro ⟨⟨a, b⟩, c1, c2, c3⟩
        exact ⟨⟨⟨by omega, c1⟩, by omega, c2⟩, a, b, c3⟩
      · rintro ⟨⟨c1, c2⟩, a, b, c3⟩
        exact ⟨⟨a, b⟩, c1.2, c2.2, c3⟩
    obtain ⟨h1, h2⟩ := sum_finset _ ((square_nodup _ _ _).filter _) _ hm fun n => (dem n.1 n.2 : ℚ)
    rw [show (cellPixels ⌊R / r⌋.toNat (Spec.start R r e) (Spec.start R r f)) = _ from rfl] at *
    apply Prod.ext
    · show 0 + _ = _
      rw [zero_add]; exact h1
    · show 0 + _ = _
      rw [zero_add]; exact h2
  · intro s n
    unfold addCell
    by_cases h : n.1 > fny - 1 ∨ n.2 > fnx - 1
    · rw [if_pos h, if_neg]
      rw [decide_eq_true_eq]
      rintro ⟨h1, h2, _⟩
      omega
    · rw [if_neg h]
      by_cases ho : off n.1 n.2 = true
      · rw [if_pos ho, if_neg]
        rw [decide_eq_true_eq, ho]
        simp
      · rw [if_neg ho, if_pos]
        rw [decide_eq_true_eq]
        exact ⟨by omega, by omega, by simpa using ho⟩

theorem p2ji_cell (R r : ℚ) (cnx cny fnx fny e f : Int) (he : 0 ≤ e) (hf : 0 ≤ f ∧ f < cnx) :
    Brick.p2ji id ⟨cnx, cny, R⟩ ⟨fnx, fny, r⟩ (e * cnx + f) = (Spec.start R r e, Spec.start R r f) := by
  have hd : Int.tdiv (e * cnx + f) cnx = e := by
    have : 0 ≤ e * cnx + f := by
      have := Int.mul_nonneg he (by omega : 0 ≤ cnx)
      omega
    rw [Int.tdiv_eq_ediv_of_nonneg this, Int.add_comm, Int.add_mul_ediv_right _ _ (by omega), Int.ediv_eq_zero_of_lt hf.1 hf.2,
      Int.zero_add]
  unfold Brick.p2ji Brick.scale Spec.start
  dsimp only [id]
  rw [hd, show e * cnx + f - e * cnx = f by omega]

theorem round_spec (q : ℚ) : |(round q : ℚ) - q| ≤ 1 / 2 := by
  unfold round
  have h1 : ((⌊q + 1 / 2⌋ : Int) : ℚ) ≤ q + 1 / 2 := Int.floor_le _
  have h2 : q + 1 / 2 < (⌊q + 1 / 2⌋ : Int) + 1 := Int.lt_floor_add_one _
  rw [abs_le]
  constructor <;> linarith

theorem round_range (q : ℚ) (lo hi : Int) (h1 : (lo : ℚ) ≤ q) (h2 : q ≤ hi) : lo ≤ round q ∧ round q ≤ hi := by
  unfold round
  constructor
  · rw [Int.le_floor]; linarith
  · have : ⌊q + 1 / 2⌋ < hi + 1 := by
      rw [Int.floor_lt]; push_cast; linarith
    omega

/-- C282: the elevation class of a coarse cell is the mean class of its usable fine pixels, rounded to the next
whole number; without usable pixel it is 0. In particular it is one of the classes between the lowest and
the highest one of these pixels. -/
theorem c282_mean (R r : ℚ) (hr : 0 < r) (hR : 0 < R) (cnx cny fnx fny : Int) (off : Int → Int → Bool) (dem : Int → Int → Nat)
    (e f : Int) (he : 0 ≤ e) (hf : 0 ≤ f ∧ f < cnx) :
    let v := averageCell id ⟨cnx, cny, R⟩ ⟨fnx, fny, r⟩ off dem (e * cnx + f)
    let S := Spec.members R r fnx fny off e f
    (S = ∅ → v = 0) ∧
    (S.Nonempty → |(v : ℚ) - (∑ n ∈ S, (dem n.1 n.2 : ℚ)) / S.card| ≤ 1 / 2 ∧
      ∀ lo hi : Nat, (∀ n ∈ S, lo ≤ dem n.1 n.2 ∧ dem n.1 n.2 ≤ hi) → (lo : Int) ≤ v ∧ v ≤ hi) := by
  intro v S
  have hv : v = if S.card > 0 then round ((∑ n ∈ S, (dem n.1 n.2 : ℚ)) / S.card) else 0 := by
    show averageCell id ⟨cnx, cny, R⟩ ⟨fnx, fny, r⟩ off dem (e * cnx + f) = _
    unfold averageCell
    dsimp only
    rw [p2ji_cell R r cnx cny fnx fny e f he hf]
    dsimp only
    rw [cell_fold R r hr hR fnx fny off dem e f he hf.1]
  constructor
  · intro h
    rw [hv, h]
    simp
  · intro h
    rw [hv, if_pos (Finset.card_pos.2 h)]
    refine ⟨round_spec _, ?_⟩
    intro lo hi hb
    have := mean_range S h (fun n => (dem n.1 n.2 : ℚ)) (lo : ℚ) (hi : ℚ) (by
      intro n hn
      have := hb n hn
      exact ⟨by exact_mod_cast this.1, by exact_mod_cast this.2⟩)
    exact round_range _ (lo : Int) (hi : Int) (by push_cast; exact this.1) (by push_cast; exact this.2)

theorem start_step (R r : ℚ) (e e' : Int) (h : e < e') : Spec.start R r e + ⌊R / r⌋ * (e' - e) ≤ Spec.start R r e' := by
  unfold Spec.start
  rw [Int.le_floor]
  have h1 : ((⌊(e : ℚ) * R / r⌋ : Int) : ℚ) ≤ e * R / r := Int.floor_le _
  have h2 : ((⌊R / r⌋ : Int) : ℚ) ≤ R / r := Int.floor_le _
  have h3 : (0 : ℚ) ≤ (e' : ℚ) - e := by
    have : (e : ℚ) ≤ e' := by exact_mod_cast h.le
    linarith
  have h4 := mul_le_mul_of_nonneg_right h2 h3
  push_cast
  have h5 : (e' : ℚ) * R / r = e * R / r + R / r * (e' - e) := by ring
  linarith

/-- C282: no fine pixel is counted in two cells. -/
theorem c282_disjoint (R r : ℚ) (hr : 0 < r) (hR : r ≤ R) (fnx fny : Int) (off : Int → Int → Bool) (e f e' f' : Int) (n : Int × Int)
    (h : n ∈ Spec.members R r fnx fny off e f) (h' : n ∈ Spec.members R r fnx fny off e' f') : e = e' ∧ f = f' := by
  unfold Spec.members at h h'
  rw [Finset.mem_filter] at h h'
  have hz : 1 ≤ ⌊R / r⌋ := by
    rw [Int.le_floor, le_div_iff₀ hr]
    push_cast
    linarith
  have key : ∀ a b x : Int, Spec.start R r a ≤ x → x < Spec.start R r a + ⌊R / r⌋ → Spec.start R r b ≤ x →
      x < Spec.start R r b + ⌊R / r⌋ → ¬ a < b := by
    intro a b x h1 h2 h3 h4 hab
    have := start_step R r a b hab
    have h5 : ⌊R / r⌋ ≤ ⌊R / r⌋ * (b - a) := le_mul_of_one_le_right (by omega) (by omega)
    omega
  obtain ⟨_, a1, a2, _⟩ := h
  obtain ⟨_, b1, b2, _⟩ := h'
  constructor
  · have := key e e' n.1 a1.1 a1.2 b1.1 b1.2
    have := key e' e n.1 b1.1 b1.2 a1.1 a1.2
    omega
  · have := key f f' n.2 a2.1 a2.2 b2.1 b2.2
    have := key f' f n.2 b2.1 b2.2 a2.1 a2.2
    omega

/-- C282, partial: if the coarse resolution is a multiple of the fine one, each usable fine pixel is counted in a
cell. Missing: other resolutions. -/
theorem c282_complete_partial (m : Nat) (hm : 0 < m) (r : ℚ) (hr : 0 < r) (fnx fny : Int) (off : Int → Int → Bool) (i j : Int)
    (hi : 0 ≤ i ∧ i < fny) (hj : 0 ≤ j ∧ j < fnx) (ho : off i j = false) :
    ∃ e f, 0 ≤ e ∧ 0 ≤ f ∧ (i, j) ∈ Spec.members (m * r) r fnx fny off e f := by
  have hz : ⌊(m : ℚ) * r / r⌋ = m := by
    rw [mul_div_assoc, div_self hr.ne', mul_one]
    exact Int.floor_natCast m
  have hs : ∀ e : Int, Spec.start (m * r) r e = e * m := by
    intro e
    unfold Spec.start
    rw [show (e : ℚ) * (m * r) / r = ((e * m : Int) : ℚ) by push_cast; field_simp]
    exact Int.floor_intCast _
  have hm' : (0 : Int) < m := by exact_mod_cast hm
  refine ⟨i / m, j / m, Int.ediv_nonneg hi.1 hm'.le, Int.ediv_nonneg hj.1 hm'.le, ?_⟩
  unfold Spec.members
  rw [Finset.mem_filter, Finset.mem_product, Finset.mem_Ico, Finset.mem_Ico, hz, hs, hs]
  have a1 := Int.ediv_mul_le i hm'.ne'
  have a2 := Int.lt_ediv_add_one_mul_self i hm'
  have b1 := Int.ediv_mul_le j hm'.ne'
  have b2 := Int.lt_ediv_add_one_mul_self j hm'
  have a3 : (i / m + 1) * (m : Int) = i / m * m + m := by ring
  have b3 : (j / m + 1) * (m : Int) = j / m * m + m := by ring
  exact ⟨⟨hi, hj⟩, ⟨a1, by omega⟩, ⟨b1, by omega⟩, ho⟩

/-- C282, violated: for 30 m images (Landsat) and the cells of 5000 m, two of 500 rows are not counted in any cell:
whatever the elevations in these rows are, no cell changes. -/
theorem c282_gap_violated (cnx cny fnx fny : Int) (off : Int → Int → Bool) (dem dem' : Int → Int → Nat)
    (h : ∀ i j : Int, i % 500 ≠ 332 → i % 500 ≠ 499 → dem i j = dem' i j) (e f : Int) (he : 0 ≤ e) (hf : 0 ≤ f ∧ f < cnx) :
    averageCell id ⟨cnx, cny, 5000⟩ ⟨fnx, fny, 30⟩ off dem (e * cnx + f) =
      averageCell id ⟨cnx, cny, 5000⟩ ⟨fnx, fny, 30⟩ off dem' (e * cnx + f) := by
  have hz : ⌊(5000 : ℚ) / 30⌋ = 166 := by
    rw [Int.floor_eq_iff]; norm_num
  have hs : Spec.start 5000 30 e = 500 * e / 3 := by
    unfold Spec.start
    rw [Int.floor_eq_iff]
    have h1 : 3 * (500 * e / 3) ≤ 500 * e ∧ 500 * e < 3 * (500 * e / 3) + 3 := by omega
    have h2 : (3 : ℚ) * ((500 * e / 3 : Int) : ℚ) ≤ 500 * e := by exact_mod_cast h1.1
    have h3 : (500 : ℚ) * e < 3 * ((500 * e / 3 : Int) : ℚ) + 3 := by exact_mod_cast h1.2
    constructor <;> linarith
  unfold averageCell
  dsimp only
  rw [p2ji_cell 5000 30 cnx cny fnx fny e f he hf]
  dsimp only
  have : (cellPixels ⌊(5000 : ℚ) / 30⌋.toNat (Spec.start 5000 30 e) (Spec.start 5000 30 f)).foldl
      (addCell ⟨fnx, fny, 30⟩ off dem) (0, 0) =
      (cellPixels ⌊(5000 : ℚ) / 30⌋.toNat (Spec.start 5000 30 e) (Spec.start 5000 30 f)).foldl
      (addCell ⟨fnx, fny, 30⟩ off dem') (0, 0) := by
    apply List.foldl_ext
    intro s n hn
    unfold cellPixels at hn
    rw [square_mem, hz, hs] at hn
    have h1 : dem n.1 n.2 = dem' n.1 n.2 := by
      obtain ⟨⟨h2, h3⟩, _⟩ := hn
      have h4 : ((Int.toNat 166 : Nat) : Int) = 166 := rfl
      rw [h4] at h3
      obtain ⟨q, hq⟩ : ∃ q, e = 3 * q ∨ e = 3 * q + 1 ∨ e = 3 * q + 2 := ⟨e / 3, by omega⟩
      have h5 : 500 * e / 3 = 500 * q ∨ 500 * e / 3 = 500 * q + 166 ∨ 500 * e / 3 = 500 * q + 333 := by
        rcases hq with rfl | rfl | rfl <;> omega
      generalize 500 * e / 3 = d at *
      rcases h5 with rfl | rfl | rfl <;> (apply h <;> omega)
    unfold addCell
    rw [h1]
  rw [this]

/-- Ten fine pixels of 10 m in a cell of 40 m and its neighbours; the cell in the second row and second column. -/
example : averageCell id ⟨2, 2, 40⟩ ⟨7, 7, 10⟩ (fun i j => decide (i = 4 ∧ j = 4)) (fun i j => (i + j).toNat) 3 = 10 := by
  decide +kernel

/-! ## C283: aerosol flag -/

open Verif.Qai.Spec (value states)

/-- C283: pixels without data, and all other flags, are left alone. A usable pixel is flagged as filled if there is
no map of the optical depth; else as high if the optical depth exceeds 0.6, else as interpolated if it was
interpolated, else it keeps its flag. -/
theorem c283_flag (aodmap : Bool) (aod : ℚ) (interp : Bool) (v : BitVec 16) (g : Qai.Flag) :
    value g (aerosolFlag aodmap aod interp v) =
      if g = .aod ∧ value .off v = 0 then
        if aodmap = false then 3 else if 6 / 10 < aod then 2 else if interp = true then 1 else value .aod v
      else value g v := by
  have vs : ∀ x, x < 4 → value g (Qai.set .aod v x) = if g = .aod then x else value g v := by
    intro x hx
    rw [← Qai.get_eq_value, Qai.get_set .aod g v x hx, Qai.get_eq_value]
  unfold aerosolFlag
  rw [Qai.get_eq_value]
  by_cases h0 : value .off v = 0
  · rw [if_neg (by simpa using h0)]
    cases aodmap
    · simp only [Bool.not_false, if_true]
      rw [vs 3 (by decide)]
      by_cases hg : g = .aod <;> simp [hg, h0]
    · simp only [Bool.not_true, Bool.false_eq_true, if_false]
      by_cases ha : aod > 6 / 10
      · rw [if_pos ha, vs 2 (by decide)]
        by_cases hg : g = .aod
        · rw [if_pos hg, if_pos ⟨hg, h0⟩, if_neg (by decide), if_pos ha]
        · rw [if_neg hg, if_neg (fun h => hg h.1)]
      · rw [if_neg ha]
        cases interp
        · simp only [Bool.false_eq_true, if_false]
          by_cases hg : g = .aod
          · rw [if_pos ⟨hg, h0⟩, if_neg (by decide), if_neg ha, hg]
          · rw [if_neg (fun h => hg h.1)]
        · simp only [if_true]
          rw [vs 1 (by decide)]
          by_cases hg : g = .aod
          · rw [if_pos hg, if_pos ⟨hg, h0⟩, if_neg (by decide), if_neg ha]
          · rw [if_neg hg, if_neg (fun h => hg h.1)]
  · rw [if_pos (by simpa using h0), if_neg (fun h => h0 h.2)]

example : aerosolFlag true (7 / 10) true 8#16 = 136#16 ∧ aerosolFlag true (1 / 10) true 8#16 = 72#16 ∧
    aerosolFlag false (1 / 10) true 9#16 = 9#16 := by
  refine ⟨?_, ?_, ?_⟩ <;> decide +kernel

end Verif.Dem
