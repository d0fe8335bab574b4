import Verif.Ovv.Model
import Verif.Index.Lemmas
import Mathlib.Tactic.Linarith
import Mathlib.Tactic.FieldSimp
import Mathlib.Tactic.Positivity
import Mathlib.Tactic.NormNum

/-! # Theorems on the Level 3 images and their overviews -/

namespace Verif.Ovv

open Verif.Str (Out)
open Verif.Index (truncQ)
open Verif.Index.Spec (IntegerPart)

theorem visit_other {mask : Option (Nat → Bool)} {bap : Nat → Nat → Int} {img : Image} {p q : Nat} (h : q ≠ p) (b : Nat) :
    visit mask bap img p b q = img b q := by
  unfold visit
  split
  · rfl
  · exact if_neg h

theorem level3_get (mask : Option (Nat → Bool)) (bap : Nat → Nat → Int) (order : List Nat) (q b : Nat) :
    level3 mask bap order b q =
      if q ∈ order ∧ ¬ (mask.any fun m => !m q) = true then bap q b else 0 := by
  unfold level3
  have key : ∀ (l : List Nat) (img : Image), l.foldl (visit mask bap) img b q =
      if q ∈ l ∧ ¬ (mask.any fun m => !m q) = true then bap q b else img b q := by
    intro l
    induction l with
    | nil => intro img; simp
    | cons p l ih =>
      intro img
      rw [List.foldl_cons, ih]
      by_cases h : q ∈ l ∧ ¬ (mask.any fun m => !m q) = true
      · rw [if_pos h, if_pos ⟨by simp [h.1], h.2⟩]
      · rw [if_neg h]
        by_cases hp : q = p
        · subst hp
          unfold visit
          by_cases hm : (mask.any fun m => !m q) = true
          · rw [if_pos hm, if_neg (fun hh => hh.2 hm)]
          · rw [if_neg hm]; simp [hm]
        · rw [visit_other hp, if_neg]
          rintro ⟨h1, h2⟩
          rcases List.mem_cons.1 h1 with h1 | h1
          · exact hp h1
          · exact h ⟨h1, h2⟩
  exact key order blank

/-- C95 (partial): every pixel that is not masked has its composite, in any order of processing. Missing: masked
pixels are not nodata, see `c95_masked_violated`. -/
theorem c95_unmasked_partial (mask : Option (Nat → Bool)) (bap : Nat → Nat → Int) (order : List Nat) (nc : Nat)
    (ho : ∀ p, p ∈ order ↔ p < nc) (p : Nat) (hp : p < nc) (hm : ∀ m, mask = some m → m p = true) (b : Nat) :
    level3 mask bap order b p = bap p b := by
  rw [level3_get, if_pos]
  refine ⟨(ho p).2 hp, ?_⟩
  cases mask with
  | none => simp
  | some m => simp [hm m rfl]

/-- C95, violated: a masked pixel is 0 in every band (composite, information and scores), which is a valid value, and not
nodata. -/
theorem c95_masked_violated (m : Nat → Bool) (bap : Nat → Nat → Int) (order : List Nat) (p : Nat) (hm : m p = false)
    (nodata : Int) (hn : nodata ≠ 0) (b : Nat) :
    level3 (some m) bap order b p = 0 ∧ level3 (some m) bap order b p ≠ nodata := by
  have : level3 (some m) bap order b p = 0 := by
    rw [level3_get, if_neg]
    simp [hm]
  exact ⟨this, by rw [this]; exact hn.symm⟩

theorem truncQ_pos {x : ℚ} (h : 0 ≤ x) : truncQ x = ⌊x⌋ := by
  rw [Verif.Index.truncQ_eq, if_pos h]

theorem coarse_ge (res : ℚ) : res ≤ coarse res ∧ 150 ≤ coarse res := by
  unfold coarse
  split
  · rename_i h; exact ⟨le_refl _, h.le⟩
  · rename_i h; exact ⟨not_lt.1 h, le_refl _⟩

theorem source_lt {n i : Nat} {res : ℚ} (hr : 0 < res) (hi : i < size n res) : source i res < n := by
  have hc := coarse_ge res
  have hc0 : 0 < coarse res := by linarith [hc.2]
  unfold size at hi
  rw [truncQ_pos (by positivity)] at hi
  have h1 : ((i : Int) + 1) ≤ ⌊(n : ℚ) * res / coarse res⌋ := by omega
  have h2 : ((i : ℚ) + 1) ≤ n * res / coarse res := by
    have := Int.le_floor.1 h1
    push_cast at this
    exact this
  have h3 : ((i : ℚ) + 1) * coarse res ≤ n * res := (le_div_iff₀ hc0).1 h2
  unfold source
  rw [truncQ_pos (by positivity)]
  have h4 : (i : ℚ) * (coarse res / res) < n := by
    rw [← mul_div_assoc, div_lt_iff₀ hr]
    nlinarith
  have h5 : ⌊(i : ℚ) * (coarse res / res)⌋ < (n : Int) := Int.floor_lt.2 (by exact_mod_cast h4)
  have h6 : 0 ≤ ⌊(i : ℚ) * (coarse res / res)⌋ := Int.floor_nonneg.2 (by positivity)
  omega

/-- C96: the overview has one entry for each of its pixels, in their order; each shows a pixel of the chunk, which
covers the upper left corner of the pixel of the overview. -/
theorem c96_sampling (nb : Nat) (nodata : Int) (nx ny : Nat) (res : ℚ) (hr : 0 < res) (img : Image) :
    (overview nb nodata nx ny res img).map Prod.fst = List.range (size ny res * size nx res) ∧
    ∀ e ∈ overview nb nodata nx ny res img, ∃ i j r c : Nat, i < size ny res ∧ j < size nx res ∧ r < ny ∧ c < nx ∧
      e = (i * size nx res + j, colours nb nodata img (r * nx + c)) ∧
      (r : ℚ) * res ≤ i * coarse res ∧ i * coarse res < (r + 1) * res ∧
      (c : ℚ) * res ≤ j * coarse res ∧ j * coarse res < (c + 1) * res := by
  have hsrc : ∀ i : Nat, (source i res : ℚ) * res ≤ i * coarse res ∧ i * coarse res < (source i res + 1) * res := by
    intro i
    have hc := coarse_ge res
    have hc0 : 0 < coarse res := by linarith [hc.2]
    have h0 : 0 ≤ (i : ℚ) * (coarse res / res) := by positivity
    have e : ((source i res : Nat) : ℚ) = (⌊(i : ℚ) * (coarse res / res)⌋ : ℚ) := by
      unfold source
      rw [truncQ_pos h0]
      have : 0 ≤ ⌊(i : ℚ) * (coarse res / res)⌋ := Int.floor_nonneg.2 h0
      exact_mod_cast Int.toNat_of_nonneg this
    have f1 := Int.floor_le ((i : ℚ) * (coarse res / res))
    have f2 := Int.lt_floor_add_one ((i : ℚ) * (coarse res / res))
    rw [← e] at f1 f2
    have em : (i : ℚ) * coarse res = (i : ℚ) * (coarse res / res) * res := by field_simp
    rw [em]
    exact ⟨mul_le_mul_of_nonneg_right f1 hr.le, mul_lt_mul_of_pos_right f2 hr⟩
  constructor
  · unfold overview
    rw [List.map_flatMap]
    generalize size ny res = a
    generalize size nx res = b
    simp only [List.map_map]
    induction a with
    | zero => simp
    | succ a ih =>
      rw [List.range_succ, List.flatMap_append, ih]
      simp only [List.flatMap_cons, List.flatMap_nil, List.append_nil]
      rw [Nat.succ_mul, List.range_add]
      congr 1
  · intro e he
    unfold overview at he
    obtain ⟨i, hi, he⟩ := List.mem_flatMap.1 he
    obtain ⟨j, hj, rfl⟩ := List.mem_map.1 he
    rw [List.mem_range] at hi hj
    exact ⟨i, j, source i res, source j res, hi, hj, source_lt hr hi, source_lt hr hj, rfl, (hsrc i).1, (hsrc i).2,
      (hsrc j).1, (hsrc j).2⟩

theorem small_ok {x : ℚ} (h0 : 0 ≤ x) (h1 : x ≤ 255) : ∃ v, small x = .ok v ∧ IntegerPart v x ∧ 0 ≤ v ∧ v ≤ 255 := by
  have e := truncQ_pos h0
  have a : 0 ≤ ⌊x⌋ := Int.floor_nonneg.2 h0
  have b : ⌊x⌋ ≤ 255 := by
    have : (⌊x⌋ : ℚ) ≤ 255 := le_trans (Int.floor_le x) h1
    exact_mod_cast this
  refine ⟨truncQ x, ?_, Verif.Index.integerPart x, by omega, by omega⟩
  unfold small
  rw [if_pos (by omega)]

/-- C96: optical composites are stretched linearly from 0 to 2500; everything else is 0 or 255. -/
theorem c96_optical (nb : Nat) (hnb : nb ≠ 2) (nodata : Int) (img : Image) (p : Nat) :
    ∃ r g b, colours nb nodata img p = [.ok r, .ok g, .ok b] ∧
      ∀ x ∈ [(r, img 2 p), (g, img 1 p), (b, img 0 p)],
        (x.2 = nodata ∨ x.2 ≤ 0 → x.1 = 0) ∧ (x.2 ≠ nodata → 2500 ≤ x.2 → x.1 = 255) ∧
        (x.2 ≠ nodata → 0 ≤ x.2 → x.2 ≤ 2500 → IntegerPart x.1 ((x.2 : ℚ) / 2500 * 255 : ℚ)) := by
  have key : ∀ v : Int, ∃ o, optical nodata v = .ok o ∧ (v = nodata ∨ v ≤ 0 → o = 0) ∧
      (v ≠ nodata → 2500 ≤ v → o = 255) ∧
      (v ≠ nodata → 0 ≤ v → v ≤ 2500 → IntegerPart o ((v : ℚ) / 2500 * 255 : ℚ)) := by
    intro v
    unfold optical
    by_cases h1 : v < 0 ∨ v = nodata
    · rw [if_pos h1]
      exact ⟨0, rfl, fun _ => rfl, fun a b => by omega, fun a b => by omega⟩
    · rw [if_neg h1]
      by_cases h2 : v > 2500
      · rw [if_pos h2]
        exact ⟨255, rfl, fun h => by omega, fun _ _ => rfl, fun a b c => by omega⟩
      · rw [if_neg h2]
        have h0 : (0 : ℚ) ≤ v := by exact_mod_cast (by omega : 0 ≤ v)
        have h3 : (v : ℚ) ≤ 2500 := by exact_mod_cast (by omega : v ≤ 2500)
        obtain ⟨o, ho, hi, _, _⟩ := small_ok (x := (v : ℚ) / 2500 * 255) (by positivity) (by linarith)
        refine ⟨o, ho, ?_, ?_, fun _ _ _ => hi⟩
        · intro h
          have hv : v = 0 := by omega
          subst hv
          simp [IntegerPart] at hi
          have : |(o : ℝ)| ≤ 0 := hi.1 ▸ (by simp)
          have : (o : ℝ) = 0 := by simpa using this
          exact_mod_cast this
        · intro _ h
          have hv : v = 2500 := by omega
          subst hv
          have e : small (((2500 : Int) : ℚ) / 2500 * 255) = .ok 255 := by
            unfold small
            have : truncQ (((2500 : Int) : ℚ) / 2500 * 255) = 255 := by
              rw [truncQ_pos (by positivity)]
              norm_num
            rw [this]
            rfl
          rw [e] at ho
          cases ho
          rfl
  obtain ⟨r, hr, kr⟩ := key (img 2 p)
  obtain ⟨g, hg, kg⟩ := key (img 1 p)
  obtain ⟨b, hb, kb⟩ := key (img 0 p)
  refine ⟨r, g, b, ?_, ?_⟩
  · unfold colours
    rw [if_neg hnb, hr, hg, hb]
  · intro x hx
    simp only [List.mem_cons, List.not_mem_nil, or_false] at hx
    rcases hx with rfl | rfl | rfl
    · exact kr
    · exact kg
    · exact kb

/-- C96 (partial): radar composites are stretched linearly between -1600 and -600 (VV, red) and -2200 and -1200 (VH,
green), and from 0.2 to 1 (ratio, blue) if both are negative and VV is at least VH. Missing: other ratios, see
`c96_ratio_violated` and `c96_zero_violated`. -/
theorem c96_radar_partial (nodata : Int) (img : Image) (p : Nat) (vv vh : Int) (h1 : img 0 p = vv) (h2 : img 1 p = vh)
    (hn1 : vv ≠ nodata) (hn2 : vh ≠ nodata) :
    ∃ r g b, colours 2 nodata img p = [.ok r, .ok g, b] ∧
      (vv < -1600 → r = 0) ∧ (-600 < vv → r = 255) ∧
      (-1600 ≤ vv → vv ≤ -600 → IntegerPart r (((vv : ℚ) + 1600) / 1000 * 255 : ℚ)) ∧
      (vh < -2200 → g = 0) ∧ (-1200 < vh → g = 255) ∧
      (-2200 ≤ vh → vh ≤ -1200 → IntegerPart g (((vh : ℚ) + 2200) / 1000 * 255 : ℚ)) ∧
      (vh < 0 → vh ≤ vv → (vv : ℚ) / vh < 1 / 5 → b = .ok 0) ∧
      (vh < 0 → vh ≤ vv → 1 / 5 ≤ (vv : ℚ) / vh →
        ∃ o, b = .ok o ∧ IntegerPart o ((((vv : ℚ) / vh - 1 / 5) / (4 / 5) * 255 : ℚ))) := by
  have key : ∀ lo v : Int, v ≠ nodata → ∃ o, radar lo nodata v = .ok o ∧ (v < lo → o = 0) ∧ (lo + 1000 < v → o = 255) ∧
      (lo ≤ v → v ≤ lo + 1000 → IntegerPart o (((v - lo : Int) : ℚ) / 1000 * 255 : ℚ)) := by
    intro lo v hv
    unfold radar
    by_cases h1 : v < lo ∨ v = nodata
    · rw [if_pos h1]
      exact ⟨0, rfl, fun _ => rfl, fun b => by omega, fun b => by omega⟩
    · rw [if_neg h1]
      by_cases h2 : v > lo + 1000
      · rw [if_pos h2]
        exact ⟨255, rfl, fun h => by omega, fun _ => rfl, fun b c => by omega⟩
      · rw [if_neg h2]
        have h0 : (0 : ℚ) ≤ ((v - lo : Int) : ℚ) := by exact_mod_cast (by omega : 0 ≤ v - lo)
        have h3 : ((v - lo : Int) : ℚ) ≤ 1000 := by exact_mod_cast (by omega : v - lo ≤ 1000)
        obtain ⟨o, ho, hi, _, _⟩ := small_ok (x := ((v - lo : Int) : ℚ) / 1000 * 255) (by positivity) (by linarith)
        exact ⟨o, ho, fun h => by omega, fun h => by omega, fun _ _ => hi⟩
  obtain ⟨r, hr, r1, r2, r3⟩ := key (-1600) vv hn1
  obtain ⟨g, hg, g1, g2, g3⟩ := key (-2200) vh hn2
  refine ⟨r, g, ratioBand nodata vv vh, ?_, r1, fun h => r2 (by omega), fun a b => ?_, g1, fun h => g2 (by omega), fun a b => ?_,
    ?_, ?_⟩
  · unfold colours
    rw [if_pos rfl, h1, h2, hr, hg]
  · have := r3 a (by omega)
    have e : (((vv - -1600 : Int) : ℚ)) = (vv : ℚ) + 1600 := by push_cast; ring
    rw [e] at this
    exact this
  · have := g3 a (by omega)
    have e : (((vh - -2200 : Int) : ℚ)) = (vh : ℚ) + 2200 := by push_cast; ring
    rw [e] at this
    exact this
  · intro a b c
    unfold ratioBand
    rw [if_neg (by omega), if_neg (by omega), if_pos c]
  · intro a b c
    unfold ratioBand
    rw [if_neg (by omega), if_neg (by omega), if_neg (not_lt.2 c), if_neg (by omega)]
    have ha : ((vh : Int) : ℚ) < 0 := by exact_mod_cast a
    have hb : (vh : ℚ) ≤ vv := by exact_mod_cast b
    have hle : (vv : ℚ) / vh ≤ 1 := by
      rw [div_le_one_of_neg ha]
      exact hb
    obtain ⟨o, ho, hi, _, _⟩ := small_ok (x := ((vv : ℚ) / vh - 1 / 5) / (4 / 5) * 255) (by
      apply mul_nonneg _ (by norm_num)
      apply div_nonneg (by linarith) (by norm_num)) (by
      have : ((vv : ℚ) / vh - 1 / 5) / (4 / 5) ≤ 1 := by
        rw [div_le_one (by norm_num)]
        linarith
      linarith)
    exact ⟨o, ho, hi⟩

/-- C96, violated: if the ratio is 1.01 or more and VH is negative (VV weaker than VH), the number that is converted to
a byte is larger than 255, which is undefined: the code tests VH instead of the ratio against 1. -/
theorem c96_ratio_violated (nodata : Int) (img : Image) (p : Nat) (vv vh : Int) (h1 : img 0 p = vv) (h2 : img 1 p = vh)
    (hn1 : vv ≠ nodata) (hn2 : vh ≠ nodata) (hneg : vh < 0) (hr : (101 : ℚ) / 100 ≤ (vv : ℚ) / vh) :
    (colours 2 nodata img p)[2]? = some .ub := by
  unfold colours
  rw [if_pos rfl, h1, h2]
  show some (ratioBand nodata vv vh) = _
  unfold ratioBand
  rw [if_neg (by omega), if_neg (by omega), if_neg (by linarith), if_neg (by omega)]
  unfold small
  rw [if_neg]
  intro h
  have hx : (256 : ℚ) ≤ ((vv : ℚ) / vh - 1 / 5) / (4 / 5) * 255 := by
    rw [div_mul_eq_mul_div, le_div_iff₀ (by norm_num)]
    linarith
  rw [truncQ_pos (by linarith)] at h
  have : (256 : Int) ≤ ⌊((vv : ℚ) / vh - 1 / 5) / (4 / 5) * 255⌋ := Int.le_floor.2 (by exact_mod_cast hx)
  omega

/-- C96, violated: if VH is 0 and VV is not negative, infinity or not a number is converted to a byte. Masked pixels
are 0 in both bands (C95). -/
theorem c96_zero_violated (nodata : Int) (hn : nodata < 0) (m : Nat → Bool) (bap : Nat → Nat → Int) (order : List Nat)
    (p : Nat) (hm : m p = false) : (colours 2 nodata (level3 (some m) bap order) p)[2]? = some .ub := by
  have h : ∀ b, level3 (some m) bap order b p = 0 := fun b => (c95_masked_violated m bap order p hm nodata (by omega) b).1
  unfold colours
  rw [if_pos rfl, h, h]
  show some (ratioBand nodata 0 0) = _
  unfold ratioBand
  rw [if_neg (by omega), if_pos rfl, if_neg (by omega)]

/-- C96, violated: if the height of the chunks is not a multiple of the resolution of the overview, the
overviews of the chunks have fewer rows than the overview of the tile has below each other: some remain empty. -/
theorem c96_chunks_violated (res : ℚ) (hr : 0 < res) (cy n : Nat) (k : Nat)
    (hk : (cy : ℚ) * res = (k + 1 / 2) * coarse res) (hn : 2 ≤ n) :
    n * size cy res < size (n * cy) res := by
  have hc := coarse_ge res
  have hc0 : 0 < coarse res := by linarith [hc.2]
  have e1 : size cy res = k := by
    unfold size
    rw [hk, mul_div_assoc, div_self hc0.ne', mul_one, truncQ_pos (by positivity)]
    have : ⌊(k : ℚ) + 1 / 2⌋ = (k : Int) := by
      rw [Int.floor_eq_iff]
      push_cast
      constructor <;> linarith
    rw [this]
    rfl
  have e2 : (((n * cy : Nat) : ℚ)) * res / coarse res = n * k + n / 2 := by
    push_cast
    rw [mul_assoc, hk]
    field_simp
  rw [e1]
  unfold size
  rw [e2, truncQ_pos (by positivity)]
  have : ((n * k : Nat) : Int) + 1 ≤ ⌊(n : ℚ) * k + n / 2⌋ := by
    rw [Int.le_floor]
    push_cast
    have : (2 : ℚ) ≤ n := by exact_mod_cast hn
    linarith
  omega

end Verif.Ovv
