import Mathlib.Tactic.NormNum
import Mathlib.Analysis.Real.Sqrt
import Verif.Poi.Detect

/-!
# Property C292: Gaussian filters, and C293: the image that is searched
-/

namespace Verif.Poi

theorem cells_shift (h : Int) : cells (-h) (h + 1) (-h) (h + 1) =
    (cells 0 (2 * h + 1) 0 (2 * h + 1)).map fun c => (c.1 - h, c.2 - h) := by
  have hs : span (-h) (h + 1) = (span 0 (2 * h + 1)).map fun x => x - h := by
    unfold span
    rw [List.map_map, show h + 1 - -h = 2 * h + 1 - 0 by ring]
    refine List.map_congr_left fun n _ => ?_
    simp only [Function.comp]
    ring
  unfold cells
  rw [hs, List.map_flatMap, List.flatMap_map]
  congr 1
  funext k
  rw [List.map_map, List.map_map]
  rfl

theorem raw_pos (sigma : ℝ) (i j : Int) : 0 < gaussRaw sigma i j := Real.exp_pos _

theorem total_pos (sigma : ℝ) (h : Int) (hh : 0 ≤ h) :
    0 < ((cells (-h) (h + 1) (-h) (h + 1)).map fun c => gaussRaw sigma c.1 c.2).sum := by
  refine List.sum_pos _ ?_ ?_
  · intro x hx
    obtain ⟨c, -, rfl⟩ := List.mem_map.1 hx
    exact raw_pos _ _ _
  · intro hn
    rw [List.map_eq_nil_iff] at hn
    have : ((0, 0) : Int × Int) ∈ cells (-h) (h + 1) (-h) (h + 1) := (mem_cells _ _ _ _ _).2 (by dsimp only; omega)
    rw [hn] at this
    simp at this

theorem gauss_at (sigma : ℝ) (h k l : Int) (hk : 0 ≤ l) (hl : l < 2 * h + 1) :
    gauss sigma (2 * h + 1) (k * (2 * h + 1) + l) = gaussRaw sigma (k - h) (l - h) /
      ((cells (-h) (h + 1) (-h) (h + 1)).map fun c => gaussRaw sigma c.1 c.2).sum := by
  unfold gauss
  have e1 : (2 * h + 1 - 1) / 2 = h := by omega
  have e2 : (k * (2 * h + 1) + l) / (2 * h + 1) = k := by
    rw [add_comm, Int.add_mul_ediv_right _ _ (by omega), Int.ediv_eq_zero_of_lt hk hl, zero_add]
  have e3 : (k * (2 * h + 1) + l) % (2 * h + 1) = l := by
    rw [add_comm, Int.add_mul_emod_self_right, Int.emod_eq_of_lt hk hl]
  dsimp only
  rw [e1, e2, e3]

/-- C292: the weights of a Gaussian filter of odd width are positive, add up to one, decrease with the distance from the
centre, and depend on the distance only. -/
theorem c292_weights (sigma : ℝ) (hs : 0 < sigma) (h : Int) (hh : 0 ≤ h) :
    ((cells 0 (2 * h + 1) 0 (2 * h + 1)).map fun c => gauss sigma (2 * h + 1) (c.1 * (2 * h + 1) + c.2)).sum = 1 ∧
      ∀ k l m n, (0 ≤ k ∧ k ≤ 2 * h) → (0 ≤ l ∧ l ≤ 2 * h) → (0 ≤ m ∧ m ≤ 2 * h) → (0 ≤ n ∧ n ≤ 2 * h) →
        0 < gauss sigma (2 * h + 1) (k * (2 * h + 1) + l) ∧
        (gauss sigma (2 * h + 1) (k * (2 * h + 1) + l) ≤ gauss sigma (2 * h + 1) (m * (2 * h + 1) + n) ↔
          (m - h) * (m - h) + (n - h) * (n - h) ≤ (k - h) * (k - h) + (l - h) * (l - h)) := by
  have hT := total_pos sigma h hh
  constructor
  · have e : ((cells 0 (2 * h + 1) 0 (2 * h + 1)).map fun c => gauss sigma (2 * h + 1) (c.1 * (2 * h + 1) + c.2)) =
        ((cells 0 (2 * h + 1) 0 (2 * h + 1)).map fun c => gaussRaw sigma (c.1 - h) (c.2 - h) *
          (((cells (-h) (h + 1) (-h) (h + 1)).map fun c => gaussRaw sigma c.1 c.2).sum)⁻¹) := by
      refine List.map_congr_left fun c hc => ?_
      obtain ⟨-, h1, h2⟩ := (mem_cells _ _ _ _ _).1 hc
      rw [gauss_at sigma h c.1 c.2 h1 h2, div_eq_mul_inv]
    rw [e, List.sum_map_mul_right]
    have e2 : ((cells 0 (2 * h + 1) 0 (2 * h + 1)).map fun c => gaussRaw sigma (c.1 - h) (c.2 - h)) =
        ((cells (-h) (h + 1) (-h) (h + 1)).map fun c => gaussRaw sigma c.1 c.2) := by
      rw [cells_shift, List.map_map]
      rfl
    rw [e2]
    exact mul_inv_cancel₀ hT.ne'
  · intro k l m n hk hl hm hn
    rw [gauss_at sigma h k l hl.1 (by omega), gauss_at sigma h m n hn.1 (by omega)]
    refine ⟨div_pos (raw_pos _ _ _) hT, ?_⟩
    rw [div_le_div_iff_of_pos_right hT]
    unfold gaussRaw
    rw [Real.exp_le_exp]
    have hneg : -(1 / 2) / sigma ^ 2 < 0 := div_neg_of_neg_of_pos (by norm_num) (by positivity)
    rw [mul_le_mul_left_of_neg hneg]
    have : ((((m - h) * (m - h) + (n - h) * (n - h) : Int) : ℝ) ≤ (((k - h) * (k - h) + (l - h) * (l - h) : Int) : ℝ)) ↔
        (m - h) * (m - h) + (n - h) * (n - h) ≤ (k - h) * (k - h) + (l - h) * (l - h) := Int.cast_le
    rw [← this]
    push_cast
    rfl

/-- C292: the widths of the two filters that the search uses. -/
theorem c292_widths : gaussWidth (7 / 10) = 5 ∧ gaussWidth 2 = 15 := by
  have h8 : (2.828 : ℝ) < √8 ∧ √8 < 2.8285 := by
    constructor
    · exact Real.lt_sqrt_of_sq_lt (by norm_num)
    · exact (Real.sqrt_lt' (by norm_num)).2 (by norm_num)
  have f1 : ⌊3 * √8 * (7 / 10) + 1 / 10000000000⌋ = 5 := by
    rw [Int.floor_eq_iff]
    push_cast
    constructor <;> linarith [h8.1, h8.2]
  have f2 : ⌊3 * √8 * 2 + 1 / 10000000000⌋ = 16 := by
    rw [Int.floor_eq_iff]
    push_cast
    constructor <;> linarith [h8.1, h8.2]
  constructor
  · unfold gaussWidth
    rw [f1]
    norm_num
  · unfold gaussWidth
    rw [f2]
    norm_num

theorem gauss_nonneg (n : Int) : 0 ≤ gauss 2 15 n :=
  div_nonneg (raw_pos _ _ _).le (total_pos 2 7 (by norm_num)).le

/-- The search with the filters of the program. -/
example (target base : List Int) (W H nodata : Int) (minimum : Nat) (hW : 7 ≤ W) (hH : 7 ≤ H)
    (ht : (target.length : Int) = W * H) (hb : (base.length : Int) = W * H) :
    ∃ pts, points target base W H nodata (gauss (7 / 10) 5) (gauss 2 15) 5 15 minimum = some pts :=
  (c293_search target base W H nodata _ _ minimum hW hH ht hb gauss_nonneg).imp fun _ h => h.1

/-! ## The image that is searched -/

/-- The square of the standard deviation. -/
def Spec.variance (vs : List ℚ) : ℚ :=
  (vs.map fun v => (v - vs.sum / vs.length) * (v - vs.sum / vs.length)).sum / vs.length

/-- The values of an image where both have data. -/
def Spec.common (px target base : List Int) : List ℚ :=
  ((px.zip (target.zip base)).filter fun v => 0 < v.2.1 ∧ 0 < v.2.2).map fun v => (v.1 : ℚ)

theorem zip_mask (px target base : List Int) :
    (((px.zip (mask target base)).filter (·.2)).map fun v => (v.1 : ℚ)) = Spec.common px target base := by
  unfold mask Spec.common
  induction px generalizing target base with
  | nil => simp
  | cons p px ih =>
    cases target with
    | nil => simp
    | cons t target =>
      cases base with
      | nil => simp
      | cons b base =>
        simp only [List.zip_cons_cons, List.map_cons, List.filter_cons]
        by_cases h : t > 0 ∧ b > 0
        · rw [if_pos (by simpa using h), if_pos (by simpa using h)]
          simp only [List.map_cons]
          rw [ih]
        · rw [if_neg (by simpa using h), if_neg (by simpa using h)]
          exact ih target base

theorem variance_eq (px target base : List Int) (h : Spec.common px target base ≠ []) :
    (variance px (mask target base) : ℚ) = Spec.variance (Spec.common px target base) := by
  unfold variance Spec.variance
  rw [zip_mask]
  dsimp only
  rw [if_neg (fun e => h (List.length_eq_zero_iff.1 e))]

theorem zip_get {α β : Type} (l : List α) (m : List β) (n : Nat) (a : α) (b : β) (h1 : l[n]? = some a) (h2 : m[n]? = some b) :
    (l.zip m)[n]? = some (a, b) := List.getElem?_zip_eq_some.2 ⟨h1, h2⟩

/-- C293: points are searched in the image with the smaller standard deviation over the pixels with data in both images,
without the other pixels. -/
theorem c293_image (target base : List Int) (nodata : Int) (hl : target.length = base.length) (img : List Int)
    (h : image ℚ target base nodata = some img) (n : Int) (t u : Int) (ht : get target n = some t)
    (hu : get base n = some u) :
    get img n = some (if 0 < t ∧ 0 < u then
      (if Spec.variance (Spec.common target target base) ≤ Spec.variance (Spec.common base target base) then t else u)
      else nodata) := by
  unfold image at h
  dsimp only at h
  split at h
  · cases h
  · rename_i hc
    cases h
    have hne : ∀ px : List Int, px.length = target.length → Spec.common px target base ≠ [] := by
      intro px hpx he
      apply hc
      rw [List.countP_eq_zero]
      intro b hb
      simp only [decide_eq_true_eq]
      rintro rfl
      obtain ⟨k, hk⟩ := List.mem_iff_getElem?.1 hb
      have hk2 : k < px.length := by
        have := (List.getElem?_eq_some_iff.1 hk).1
        unfold mask at this
        rw [List.length_map, List.length_zip] at this
        omega
      have : (px[k], true) ∈ (px.zip (mask target base)).filter (·.2) := by
        rw [List.mem_filter]
        refine ⟨?_, rfl⟩
        rw [List.mem_iff_getElem?]
        exact ⟨k, List.getElem?_zip_eq_some.2 ⟨List.getElem?_eq_getElem hk2, hk⟩⟩
      rw [← zip_mask, List.map_eq_nil_iff] at he
      rw [he] at this
      simp at this
    rw [variance_eq _ _ _ (hne target rfl), variance_eq _ _ _ (hne base hl.symm)]
    unfold get at ht hu ⊢
    split at ht
    · rename_i hn
      rw [if_pos hn] at hu
      rw [if_pos hn]
      have hm : (mask target base)[n.toNat]? = some (decide (t > 0 ∧ u > 0)) := by
        unfold mask
        rw [List.getElem?_map, zip_get _ _ _ _ _ ht hu]
        rfl
      by_cases hq2 : Spec.variance (Spec.common target target base) ≤ Spec.variance (Spec.common base target base)
      · rw [if_pos hq2, if_pos hq2]
        unfold applyMask
        rw [List.getElem?_map, zip_get _ _ _ _ _ ht hm]
        show some (if decide (t > 0 ∧ u > 0) = false then nodata else t) = _
        by_cases hp : 0 < t ∧ 0 < u
        · rw [if_pos hp, if_neg (by simpa using hp)]
        · rw [if_neg hp, if_pos (by simpa using hp)]
      · rw [if_neg hq2, if_neg hq2]
        unfold applyMask
        rw [List.getElem?_map, zip_get _ _ _ _ _ hu hm]
        show some (if decide (t > 0 ∧ u > 0) = false then nodata else u) = _
        by_cases hp : 0 < t ∧ 0 < u
        · rw [if_pos hp, if_neg (by simpa using hp)]
        · rw [if_neg hp, if_pos (by simpa using hp)]
    · cases ht

/-! ## Concrete cases -/

/-- A five by five image, filtered with equal weights: the centre has the mean, the pixels right of it and below are zero. -/
example : (conv (List.replicate 25 (9 : ℚ)) 5 5 (fun _ => 1 / 9) 3).map (fun o => (get o (1 * 5 + 1), get o (2 * 5 + 3))) =
    some (some 9, some 0) := by
  decide +kernel

/-- The second image varies less. -/
example : image ℚ [5, 9, 0, 1] [4, 5, 7, 6] (-1) = some [4, 5, -1, 6] := by decide +kernel

/-- A maximum is found in a sixteen by sixteen image. -/
example : (detect (List.replicate 289 (1 : Int)) (List.replicate 289 (3 : ℚ))
    ((List.range 289).map fun n => if n % 17 < 9 then 1 else -1) ((List.range 289).map fun n => if n / 17 < 9 then 1 else -1)
    17 17 0 4 1) = some [(8, 8)] := by decide +kernel

end Verif.Poi
