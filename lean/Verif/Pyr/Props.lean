import Mathlib.Tactic.Linarith
import Mathlib.Tactic.NormNum
import Mathlib.Tactic.Positivity
import Mathlib.Tactic.IntervalCases
import Verif.Index.Lemmas
import Verif.Qai.Props
import Verif.Coreg.Pyramid
import Verif.Coreg.Register
import Verif.Pyr.Model

namespace Verif.Pyr

open Verif.Str (Out mapOut)
open Verif.Index (truncQ short)

namespace Spec

/-- A clear pixel: inside of the image, neither cloud nor cloud shadow (documented bits 0, 1-2 and 3). -/
def Clear (q : BitVec 16) : Prop := q.toNat % 16 = 0

/-- Clear observations of two images agree. -/
def SameClear (a b : List Int) (qai : List (BitVec 16)) : Prop :=
  a.length = b.length ∧ ∀ (p : Nat) (q : BitVec 16), qai[p]? = some q → Clear q → a[p]? = b[p]?

end Spec

theorem unused_iff (q : BitVec 16) : unused q = true ↔ ¬ Spec.Clear q := by
  unfold unused Spec.Clear
  simp only [Verif.Qai.c07_get_documented_bits, Verif.Qai.Spec.value, Verif.Qai.Spec.layout, Bool.or_eq_true,
    decide_eq_true_eq]
  omega

theorem bottom_get (image : List Int) (qai : List (BitVec 16)) (nodata : Int) (p : Nat) :
    (bottom image qai nodata)[p]? =
      (image[p]?).bind fun v => (qai[p]?).map fun q => if unused q then nodata else v := by
  unfold bottom
  rw [List.getElem?_zipWith]
  cases image[p]? <;> cases qai[p]? <;> rfl

theorem bind_ok {α β : Type} {o : Out α} {f : α → Out β} {b : β} (h : o.bind f = .ok b) :
    ∃ a, o = .ok a ∧ f a = .ok b := by
  cases o with
  | ok a => exact ⟨a, rfl, h⟩
  | exit => simp [Out.bind] at h
  | ub => simp [Out.bind] at h

/-- C299: the finest layer holds the image at clear pixels, and no data elsewhere. -/
theorem c299_finest {image : List Int} {qai : List (BitVec 16)} {nx ny : Nat} {nodata : Int}
    {f : Nat → Nat → ℚ} {w : Nat → Nat} {ls : List Layer}
    (h : buildPyramids image qai nx ny nodata f w = .ok ls) :
    ∃ l, ls[0]? = some l ∧ ∀ (p : Nat) (v : Int) (q : BitVec 16), image[p]? = some v → qai[p]? = some q →
      (Spec.Clear q → l.px[p]? = some v) ∧ (¬ Spec.Clear q → l.px[p]? = some nodata) := by
  unfold buildPyramids at h
  obtain ⟨r, -, h2⟩ := bind_ok h
  have : ls = _ := (Out.ok.inj h2).symm
  subst this
  refine ⟨_, rfl, fun p v q hv hq => ?_⟩
  show (Spec.Clear q → (bottom image qai nodata)[p]? = _) ∧ (¬ Spec.Clear q → (bottom image qai nodata)[p]? = _)
  rw [bottom_get, hv, hq]
  simp only [Option.bind_some, Option.map_some]
  constructor
  · intro hc
    rw [if_neg (by rw [unused_iff]; exact fun x => x hc)]
  · intro hc
    rw [if_pos ((unused_iff q).2 hc)]

theorem coarser_ok {nodata : Int} {f : Nat → Nat → ℚ} {w : Nat → Nat} {scales : List Nat} {l : Layer}
    {ls : List Layer} (h : coarser nodata f w scales l = .ok ls) :
    ls.length = scales.length ∧ ∀ (k s : Nat) (a b : Layer), scales[k]? = some s → (l :: ls)[k]? = some a →
      ls[k]? = some b → b.nx = a.nx / s ∧ b.ny = a.ny / s ∧
        Verif.Coreg.pyramidLayer a.px a.nx a.ny nodata (f s) (w s) s = .ok b.px := by
  induction scales generalizing l ls with
  | nil =>
    have : ls = [] := (Out.ok.inj h).symm
    subst this
    exact ⟨rfl, fun k s a b hs => by simp at hs⟩
  | cons s scales ih =>
    rw [coarser] at h
    obtain ⟨px, h1, h2⟩ := bind_ok h
    obtain ⟨r, h3, h4⟩ := bind_ok h2
    have : ls = _ := (Out.ok.inj h4).symm
    subst this
    obtain ⟨hl, hk⟩ := ih h3
    refine ⟨by simp [hl], fun k t a b ht ha hb => ?_⟩
    cases k with
    | zero =>
      simp only [List.getElem?_cons_zero, Option.some.injEq] at ht ha hb
      subst ht ha hb
      exact ⟨rfl, rfl, h1⟩
    | succ k =>
      simp only [List.getElem?_cons_succ] at ht ha hb
      exact hk k t a b ht ha hb

/-- C299: there are four layers; each layer after the finest one has half of the columns and rows (rounded down) of the
layer before, and its pixel in row `r` and column `c` is the blurred pixel in row `2 r` and column `2 c` there. -/
theorem c299_layers {image : List Int} {qai : List (BitVec 16)} {nx ny : Nat} {nodata : Int}
    {f : Nat → Nat → ℚ} {w : Nat → Nat} {ls : List Layer}
    (h : buildPyramids image qai nx ny nodata f w = .ok ls) :
    ls.length = 4 ∧ (∀ (k : Nat) (l : Layer), ls[k]? = some l → l.nx = nx / 2 ^ k ∧ l.ny = ny / 2 ^ k) ∧
    ∀ (k : Nat) (a b : Layer), ls[k]? = some a → ls[k + 1]? = some b →
      b.px.length = b.nx * b.ny ∧ ∀ r c, r < b.ny → c < b.nx → 2 * r < a.ny ∧ 2 * c < a.nx ∧
        ∃ v, b.px[r * b.nx + c]? = some v ∧
          Verif.Coreg.blurPixel a.px a.nx a.ny nodata (f 2) (w 2) (2 * r) (2 * c) = .ok v := by
  unfold buildPyramids at h
  obtain ⟨r, h1, h2⟩ := bind_ok h
  have : ls = _ := (Out.ok.inj h2).symm
  subst this
  obtain ⟨hl, hk⟩ := coarser_ok h1
  have hl3 : r.length = 3 := hl
  have hs : ∀ k, k < 3 → ([2, 2, 2] : List Nat)[k]? = some 2 := by
    intro k h; interval_cases k <;> rfl
  refine ⟨by simp [hl3], ?_, ?_⟩
  · intro k
    induction k with
    | zero =>
      intro l e
      simp only [List.getElem?_cons_zero, Option.some.injEq] at e
      subst e
      simp
    | succ k ih =>
      intro l e
      have hk3 : k < r.length := by
        rw [List.getElem?_cons_succ] at e
        exact (List.getElem?_eq_some_iff.1 e).1
      have : k < (⟨nx, ny, bottom image qai nodata⟩ :: r).length := by simp; omega
      obtain ⟨a1, a2⟩ := ih _ (List.getElem?_eq_getElem this)
      obtain ⟨b1, b2, -⟩ := hk k 2 _ l (hs k (by omega)) (List.getElem?_eq_getElem this) (by simpa using e)
      rw [b1, b2, a1, a2, Nat.div_div_eq_div_mul, Nat.div_div_eq_div_mul, pow_succ]
      exact ⟨rfl, rfl⟩
  · intro k a b ha hb
    rw [List.getElem?_cons_succ] at hb
    have hk3 : k < r.length := (List.getElem?_eq_some_iff.1 hb).1
    obtain ⟨b1, b2, b3⟩ := hk k 2 a b (hs k (by omega)) ha hb
    obtain ⟨c1, c2⟩ := Verif.Coreg.c229_layer b3
    refine ⟨by rw [c1, b1, b2], fun r c hr hc => ?_⟩
    rw [b1] at hc ⊢
    rw [b2] at hr
    obtain ⟨d1, d2, v, d3, d4⟩ := c2 r c hr hc
    rw [Nat.mul_comm 2 r, Nat.mul_comm 2 c]
    exact ⟨d1, d2, v, d3, d4⟩

/-- C299: whatever the image shows at clouds, shadows and outside of the data has no influence on any layer. -/
theorem c299_masked {a b : List Int} {qai : List (BitVec 16)} (h : Spec.SameClear a b qai) (nx ny : Nat) (nodata : Int)
    (f : Nat → Nat → ℚ) (w : Nat → Nat) :
    buildPyramids a qai nx ny nodata f w = buildPyramids b qai nx ny nodata f w := by
  have : bottom a qai nodata = bottom b qai nodata := by
    apply List.ext_getElem?
    intro p
    rw [bottom_get, bottom_get]
    cases hq : qai[p]? with
    | none => cases a[p]? <;> cases b[p]? <;> rfl
    | some q =>
      by_cases hc : Spec.Clear q
      · rw [h.2 p q hq hc]
      · have hu := (unused_iff q).2 hc
        simp only [Option.map_some, hu, if_true]
        have hl := h.1
        rcases lt_or_ge p a.length with hp | hp
        · rw [List.getElem?_eq_getElem hp, List.getElem?_eq_getElem (hl ▸ hp)]; rfl
        · rw [List.getElem?_eq_none hp, List.getElem?_eq_none (hl ▸ hp)]
  unfold buildPyramids
  rw [this]

theorem blur_blank {px : List Int} {nodata : Int} (hb : ∀ v ∈ px, v = nodata) (W : Nat) (f : Nat → ℚ) (w h i j : Nat)
    (l : List (Nat × Nat)) (st r : ℚ × ℚ)
    (hr : l.foldlM (Verif.Coreg.blurStep px W nodata f w h i j) st = some r) : r = st := by
  induction l generalizing st with
  | nil => simpa using hr.symm
  | cons a l ih =>
    rw [List.foldlM_cons, Verif.Coreg.blurStep] at hr
    cases hp : px[(i + a.1 - h) * W + (j + a.2 - h)]? with
    | none => rw [hp] at hr; simp at hr
    | some v =>
      rw [hp] at hr
      have hv : v = nodata := hb v (List.mem_of_getElem? hp)
      simp only [hv, if_true] at hr
      exact ih _ hr

theorem blank_layer {l : Layer} {nodata : Int} (hb : ∀ v ∈ l.px, v = nodata) {f : Nat → ℚ} {w s : Nat} {out : List Int}
    (h : Verif.Coreg.pyramidLayer l.px l.nx l.ny nodata f w s = .ok out) : ∀ v ∈ out, v = nodata := by
  unfold Verif.Coreg.pyramidLayer at h
  obtain ⟨h1, h2⟩ := Verif.Coreg.mapOut_get h
  intro v hv
  obtain ⟨n, hn, rfl⟩ := List.mem_iff_getElem.1 hv
  have := h2 n (by omega) hn
  unfold Verif.Coreg.blurPixel at this
  dsimp only at this
  split at this
  · exact absurd this (by simp)
  · rename_i r hs
    have e : r = (0, 0) := blur_blank hb _ _ _ _ _ _ _ _ _ hs
    subst e
    have : nodata = out[n] := by simpa [Verif.Coreg.blurEnd] using this
    exact this.symm

/-- C299: an image without a clear pixel gives layers without data. -/
theorem c299_blank {image : List Int} {qai : List (BitVec 16)} {nx ny : Nat} {nodata : Int}
    {f : Nat → Nat → ℚ} {w : Nat → Nat} {ls : List Layer} (hq : ∀ q ∈ qai, ¬ Spec.Clear q)
    (h : buildPyramids image qai nx ny nodata f w = .ok ls) : ∀ l ∈ ls, ∀ v ∈ l.px, v = nodata := by
  unfold buildPyramids at h
  obtain ⟨r, h1, h2⟩ := bind_ok h
  have : ls = _ := (Out.ok.inj h2).symm
  subst this
  obtain ⟨hl, hk⟩ := coarser_ok h1
  have hl3 : r.length = 3 := hl
  have hs : ∀ k, k < 3 → ([2, 2, 2] : List Nat)[k]? = some 2 := by
    intro k h; interval_cases k <;> rfl
  have h0 : ∀ v ∈ bottom image qai nodata, v = nodata := by
    intro v hv
    obtain ⟨p, hp⟩ := List.mem_iff_getElem?.1 hv
    rw [bottom_get] at hp
    cases hi : image[p]? with
    | none => rw [hi] at hp; simp at hp
    | some x =>
      cases hj : qai[p]? with
      | none => rw [hi, hj] at hp; simp at hp
      | some q =>
        rw [hi, hj] at hp
        simp only [Option.bind_some, Option.map_some, (unused_iff q).2 (hq q (List.mem_of_getElem? hj)), if_true,
          Option.some.injEq] at hp
        exact hp.symm
  have key : ∀ (k : Nat) (l : Layer), (⟨nx, ny, bottom image qai nodata⟩ :: r)[k]? = some l → ∀ v ∈ l.px, v = nodata := by
    intro k
    induction k with
    | zero =>
      intro l e
      simp only [List.getElem?_cons_zero, Option.some.injEq] at e
      subst e
      exact h0
    | succ k ih =>
      intro l e
      rw [List.getElem?_cons_succ] at e
      have hk3 : k < r.length := (List.getElem?_eq_some_iff.1 e).1
      have hlt : k < (⟨nx, ny, bottom image qai nodata⟩ :: r).length := by simp; omega
      obtain ⟨-, -, b3⟩ := hk k 2 _ l (hs k (by omega)) (List.getElem?_eq_getElem hlt) e
      exact blank_layer (ih _ (List.getElem?_eq_getElem hlt)) b3
  intro l hl v hv
  obtain ⟨k, e⟩ := List.mem_iff_getElem?.1 hl
  exact key k l e v hv

/-- The hypotheses are met: an image with a cloud (value 7 of the pixel does not matter). -/
example : buildPyramids [7, 4, 4, 4] [2#16, 0, 0, 0] 2 2 (-9999) (fun _ _ => 1) (fun _ => 1) =
    .ok [⟨2, 2, [-9999, 4, 4, 4]⟩, ⟨1, 1, [-9999]⟩, ⟨0, 0, []⟩, ⟨0, 0, []⟩] := by decide +kernel

example : Spec.SameClear [7, 4] [9, 4] [2#16, 0#16] := by
  refine ⟨rfl, fun p q hq hc => ?_⟩
  match p, hq with
  | 0, hq =>
    have : q = 2#16 := by simpa using hq.symm
    subst this
    exact absurd hc (by unfold Spec.Clear; decide)
  | 1, _ => rfl
  | p + 2, hq => simp at hq

/-! ## C300: ranges of the matching -/

theorem trunc_floor {x : ℚ} (h : 0 ≤ x) : truncQ x = ⌊x⌋ := by
  rw [Verif.Index.truncQ_eq, if_pos h]

/-- C300: the grid of dense matching has a step of at least three pixels. With at most as much land as there are
pixels, the step is not larger than the one for an image that is all land (a 36.6th of its shorter side, rounded). -/
theorem c300_step (nx ny nland : Nat) (h : nland ≤ nx * ny) :
    3 ≤ denseStep nx ny nland ∧ denseStep nx ny nland ≤ max 3 ⌊((min nx ny : Nat) : ℚ) / (366 / 10) + 1 / 2⌋ := by
  have hnn : (0 : ℚ) ≤ ((min nx ny : Nat) : ℚ) / (366 / 10) + 1 / 2 := by positivity
  have ht : truncQ (((min nx ny : Nat) : ℚ) / (366 / 10) + 1 / 2) = ⌊((min nx ny : Nat) : ℚ) / (366 / 10) + 1 / 2⌋ := by
    exact trunc_floor hnn
  unfold denseStep
  dsimp only
  rw [ht]
  set m := ⌊((min nx ny : Nat) : ℚ) / (366 / 10) + 1 / 2⌋ with hm
  have hm0 : 0 ≤ m := Int.floor_nonneg.2 hnn
  set m' : Int := if m ≠ 0 then m else 1 with hm'
  have hm1 : 1 ≤ m' ∧ m' ≤ max 3 m := by
    rw [hm']
    split <;> omega
  have hr0 : (0 : ℚ) ≤ (nland : ℚ) / ((nx * ny : Nat) : ℚ) := by positivity
  have hr1 : (nland : ℚ) / ((nx * ny : Nat) : ℚ) ≤ 1 := by
    apply div_le_one_of_le₀ (by exact_mod_cast h) (by positivity)
  have hq : (1 : ℚ) ≤ (m' : ℚ) := by exact_mod_cast hm1.1
  have hp0 : 0 ≤ (nland : ℚ) / ((nx * ny : Nat) : ℚ) * m' := by positivity
  have hp1 : (nland : ℚ) / ((nx * ny : Nat) : ℚ) * m' ≤ m' := by nlinarith
  have : truncQ ((nland : ℚ) / ((nx * ny : Nat) : ℚ) * m') ≤ m' := by
    rw [trunc_floor hp0]
    exact Int.floor_le_iff.2 (by linarith)
  split
  · omega
  · omega

/-- C300: for an image that is all land, the step is a 36.6th of the shorter side, rounded, but at least three. -/
theorem c300_full (nx ny : Nat) (h : 0 < nx * ny) :
    denseStep nx ny (nx * ny) = max 3 ⌊((min nx ny : Nat) : ℚ) / (366 / 10) + 1 / 2⌋ := by
  have hnn : (0 : ℚ) ≤ ((min nx ny : Nat) : ℚ) / (366 / 10) + 1 / 2 := by positivity
  have hne : ((nx * ny : Nat) : ℚ) ≠ 0 := by exact_mod_cast h.ne'
  unfold denseStep
  dsimp only
  rw [trunc_floor hnn, div_self hne, one_mul, Verif.Coreg.truncQ_int]
  split <;> split <;> omega

/-- C300: less land never gives a coarser grid. -/
theorem c300_monotone (nx ny a b : Nat) (h : a ≤ b) : denseStep nx ny a ≤ denseStep nx ny b := by
  have hnn : (0 : ℚ) ≤ ((min nx ny : Nat) : ℚ) / (366 / 10) + 1 / 2 := by positivity
  unfold denseStep
  dsimp only
  set m := truncQ (((min nx ny : Nat) : ℚ) / (366 / 10) + 1 / 2) with hm
  have hm0 : 0 ≤ m := by
    rw [hm, trunc_floor hnn]; exact Int.floor_nonneg.2 hnn
  set m' : Int := if m ≠ 0 then m else 1 with hm'
  have hm1 : 1 ≤ m' := by rw [hm']; split <;> omega
  have hq : (1 : ℚ) ≤ (m' : ℚ) := by exact_mod_cast hm1
  have key : truncQ ((a : ℚ) / ((nx * ny : Nat) : ℚ) * m') ≤ truncQ ((b : ℚ) / ((nx * ny : Nat) : ℚ) * m') := by
    rw [trunc_floor (by positivity), trunc_floor (by positivity)]
    apply Int.floor_le_floor
    have : (a : ℚ) / ((nx * ny : Nat) : ℚ) ≤ (b : ℚ) / ((nx * ny : Nat) : ℚ) := by
      apply div_le_div_of_nonneg_right _ (by positivity)
      exact_mod_cast h
    nlinarith
  split <;> split <;> omega

/-- The full Sentinel-2 tile of the source's comment, and the same tile with a third of land. -/
example : denseStep 10980 10980 (10980 * 10980) = 300 ∧ denseStep 10980 10980 (3660 * 10980) = 100 := by
  constructor <;> decide +kernel

theorem land_le (target base : List Int) (qai : List (BitVec 16)) (thr : Int) :
    landPixels target base qai thr ≤ qai.length := by
  unfold landPixels
  exact le_trans List.countP_le_length (by simp)

/-- C300: the count of land pixels is the number of clear pixels above the threshold in both images: it does not depend
on the other pixels, and never exceeds the number of pixels. -/
theorem c300_land {target base target' base' : List Int} {qai : List (BitVec 16)} (ht : Spec.SameClear target target' qai)
    (hb : Spec.SameClear base base' qai) (thr : Int) :
    landPixels target base qai thr = landPixels target' base' qai thr ∧ landPixels target base qai thr ≤ qai.length := by
  refine ⟨?_, land_le _ _ _ _⟩
  unfold landPixels
  apply List.countP_congr
  intro p hp
  have hlt : p < qai.length := by simpa using hp
  have hq : qai.getD p 0 = qai[p] := by rw [List.getD_eq_getElem?_getD, List.getElem?_eq_getElem hlt]; rfl
  rw [hq]
  by_cases hc : Spec.Clear qai[p]
  · have e1 := ht.2 p _ (List.getElem?_eq_getElem hlt) hc
    have e2 := hb.2 p _ (List.getElem?_eq_getElem hlt) hc
    rw [List.getD_eq_getElem?_getD, List.getD_eq_getElem?_getD, List.getD_eq_getElem?_getD, List.getD_eq_getElem?_getD, e1, e2]
  · simp [(unused_iff _).2 hc]

theorem enlarge_lt {m a b : Nat} (hm : 3 ≤ m) (ha : 1 ≤ a) (hab : 2 * a ≤ b) : enlarge m a < enlarge m b := by
  have hm' : (3 : ℝ) ≤ m := by exact_mod_cast hm
  have h1 : (1 : ℝ) ≤ Real.sqrt a := by
    rw [show (1 : ℝ) = Real.sqrt 1 from Real.sqrt_one.symm]
    exact Real.sqrt_le_sqrt (by exact_mod_cast ha)
  have h2 : (7 / 5 : ℝ) * Real.sqrt a ≤ Real.sqrt b := by
    apply Real.le_sqrt_of_sq_le
    rw [mul_pow, Real.sq_sqrt (by positivity)]
    have : (2 : ℝ) * a ≤ b := by exact_mod_cast hab
    have h0 : (0 : ℝ) ≤ a := by positivity
    nlinarith
  unfold enlarge
  have : (m : ℝ) * Real.sqrt a + 1 / 2 + 1 ≤ (m : ℝ) * Real.sqrt b + 1 / 2 := by nlinarith
  have := Int.floor_le_floor this
  rw [show (m : ℝ) * Real.sqrt a + 1 / 2 + 1 = ((m : ℝ) * Real.sqrt a + 1 / 2) + ((1 : Int) : ℝ) by push_cast; ring,
    Int.floor_add_intCast] at this
  omega

/-- C300: in depth-first matching, the window may be enlarged in proportion to the square root of the factor by
which the layer is larger than the top layer, for any number of layers whose scale is two. -/
theorem c300_depth (maxH n layer : Nat) (h : layer ≤ n) :
    depthRange maxH (1 :: List.replicate n 2) n layer = ⌊(maxH : ℝ) * Real.sqrt (2 ^ (n - layer)) + 1 / 2⌋ := by
  have : depthScale (1 :: List.replicate n 2) n layer = 2 ^ (n - layer) := by
    unfold depthScale
    have e : (List.range (n - layer)).map (fun k => (1 :: List.replicate n 2).getD (n - 1 - k + 1) 0) =
        List.replicate (n - layer) 2 := by
      apply List.ext_getElem (by simp)
      intro i h1 h2
      simp only [List.length_map, List.length_range] at h1
      rw [List.getElem_map, List.getElem_range, List.getElem_replicate, List.getD_cons_succ,
        List.getD_eq_getElem?_getD, List.getElem?_replicate, if_pos (by omega)]
      rfl
    rw [e]
    generalize n - layer = k
    have g : ∀ c : Nat, (List.replicate k 2).foldl (· * ·) c = c * 2 ^ k := by
      induction k with
      | zero => intro c; simp
      | succ k ih => intro c; rw [List.replicate_succ, List.foldl_cons, ih, pow_succ]; ring
    rw [g, one_mul]
  unfold depthRange enlarge
  rw [this]
  push_cast
  rfl

theorem cumulative_two (n : Nat) (hn : 1 ≤ n) : cumulativeScale n (1 :: List.replicate n 2) = 2 ^ (n - 1) := by
  unfold cumulativeScale
  obtain ⟨m, rfl⟩ : ∃ m, n = m + 1 := ⟨n - 1, by omega⟩
  rw [List.take_succ_cons, List.take_replicate, List.foldl_cons, Nat.add_sub_cancel, Nat.min_eq_left (by omega)]
  have g : ∀ (k c : Nat), (List.replicate k 2).foldl (· * ·) c = c * 2 ^ k := by
    intro k
    induction k with
    | zero => intro c; simp
    | succ k ih => intro c; rw [List.replicate_succ, List.foldl_cons, ih, pow_succ]; ring
  rw [g]
  simp

/-- C300, part: on the finest layer, dense matching enlarges its windows as far as depth-first matching would from a
pyramid that has one layer less. Missing: the layers that there are (`c300_range_violated`). -/
theorem c300_range_partial (maxH n : Nat) (hn : 1 ≤ n) :
    denseRange maxH (1 :: List.replicate n 2) n 0 = ⌊(maxH : ℝ) * Real.sqrt (2 ^ (n - 1)) + 1 / 2⌋ := by
  unfold denseRange
  rw [cumulative_two n hn]
  have : cumulativeScale 0 (1 :: List.replicate n 2) = 1 := rfl
  rw [this, Nat.div_one]
  unfold enlarge
  push_cast
  rfl

/-- C300, violated: dense matching is meant to enlarge its windows as far as depth-first matching does on the same layer.
But the product of the scales leaves out the top layer (it counts from the scale 1 of the finest one), so that the range
is always smaller on the finest layer, for any number of layers and any range of at least three pixels. -/
theorem c300_range_violated (maxH n : Nat) (hm : 3 ≤ maxH) (hn : 1 ≤ n) :
    denseRange maxH (1 :: List.replicate n 2) n 0 < depthRange maxH (1 :: List.replicate n 2) n 0 := by
  rw [c300_range_partial maxH n hn, c300_depth maxH n 0 (Nat.zero_le _)]
  have := enlarge_lt (m := maxH) (a := 2 ^ (n - 1)) (b := 2 ^ n) hm Nat.one_le_two_pow (by
    obtain ⟨m, rfl⟩ : ∃ m, n = m + 1 := ⟨n - 1, by omega⟩
    rw [Nat.add_sub_cancel, pow_succ]; omega)
  unfold enlarge at this
  push_cast at this
  exact this

/-- The values of the program: 40 instead of 57 pixels. -/
example : denseRange 20 [1, 2, 2, 2] 3 0 = 40 ∧ depthRange 20 [1, 2, 2, 2] 3 0 = 57 := by
  have h1 := c300_range_partial 20 3 (by norm_num)
  have h2 := c300_depth 20 3 0 (by norm_num)
  constructor
  · rw [show ([1, 2, 2, 2] : List Nat) = 1 :: List.replicate 3 2 from rfl, h1, Int.floor_eq_iff]
    rw [show (2 : ℝ) ^ (3 - 1) = 2 ^ 2 by norm_num, Real.sqrt_sq (by norm_num)]
    norm_num
  · rw [show ([1, 2, 2, 2] : List Nat) = 1 :: List.replicate 3 2 from rfl, h2, Int.floor_eq_iff]
    have a : Real.sqrt (2 ^ (3 - 0)) < 2875 / 1000 := by
      rw [Real.sqrt_lt' (by norm_num)]; norm_num
    have b : 2825 / 1000 ≤ Real.sqrt (2 ^ (3 - 0)) := Real.le_sqrt_of_sq_le (by norm_num)
    constructor
    · push_cast; linarith
    · push_cast; linarith

end Verif.Pyr
