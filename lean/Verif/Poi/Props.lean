import Mathlib.Algebra.Order.Field.Basic
import Mathlib.Algebra.Order.BigOperators.Group.List
import Mathlib.Data.List.Basic
import Mathlib.Data.List.Nodup
import Mathlib.Data.List.GetD
import Mathlib.Tactic.FieldSimp
import Mathlib.Tactic.Linarith
import Mathlib.Tactic.NormNum
import Mathlib.Tactic.Positivity
import Mathlib.Tactic.Ring
import Verif.Poi.Model

/-!
# Properties C292 and C293: filters and points of interest
-/

namespace Verif.Poi

variable {K : Type} [Field K] [LinearOrder K] [IsStrictOrderedRing K]

/-! ## Loops and arrays -/

theorem mem_span (a b x : Int) : x ∈ span a b ↔ a ≤ x ∧ x < b := by
  unfold span
  rw [List.mem_map]
  constructor
  · rintro ⟨n, hn, rfl⟩
    rw [List.mem_range] at hn
    omega
  · rintro ⟨h1, h2⟩
    exact ⟨(x - a).toNat, by rw [List.mem_range]; omega, by omega⟩

theorem mem_cells (k1 k2 l1 l2 : Int) (c : Int × Int) :
    c ∈ cells k1 k2 l1 l2 ↔ (k1 ≤ c.1 ∧ c.1 < k2) ∧ l1 ≤ c.2 ∧ c.2 < l2 := by
  unfold cells
  rw [List.mem_flatMap]
  constructor
  · rintro ⟨k, hk, h⟩
    rw [List.mem_map] at h
    obtain ⟨l, hl, rfl⟩ := h
    exact ⟨(mem_span _ _ _).1 hk, (mem_span _ _ _).1 hl⟩
  · rintro ⟨h1, h2⟩
    exact ⟨c.1, (mem_span _ _ _).2 h1, List.mem_map.2 ⟨c.2, (mem_span _ _ _).2 h2, rfl⟩⟩

theorem span_nodup (a b : Int) : (span a b).Nodup := by
  unfold span
  exact List.Nodup.map (fun x y h => by simpa using h) List.nodup_range

theorem cells_nodup (k1 k2 l1 l2 : Int) : (cells k1 k2 l1 l2).Nodup := by
  unfold cells
  rw [List.nodup_flatMap]
  refine ⟨fun k _ => (span_nodup _ _).map (fun x y h => by simpa using h), ?_⟩
  refine (span_nodup k1 k2).imp ?_
  intro a b hab
  rw [Function.onFun, List.disjoint_left]
  intro c ha hb
  rw [List.mem_map] at ha hb
  obtain ⟨l, -, rfl⟩ := ha
  obtain ⟨m, -, h⟩ := hb
  exact hab (by simpa using (congrArg Prod.fst h).symm)

theorem idx (W H r c : Int) (hr : 0 ≤ r ∧ r < H) (hc : 0 ≤ c ∧ c < W) : 0 ≤ r * W + c ∧ r * W + c < W * H := by
  have h1 : 0 ≤ r * W := mul_nonneg hr.1 (by omega)
  have h2 : (r + 1) * W ≤ H * W := mul_le_mul_of_nonneg_right (by omega) (by omega)
  have h3 : (r + 1) * W = r * W + W := by ring
  have h4 : W * H = H * W := by ring
  omega

theorem get_lt {α : Type} (px : List α) (n : Int) (h0 : 0 ≤ n) (h1 : n < px.length) : ∃ v ∈ px, get px n = some v := by
  refine ⟨px[n.toNat]'(by omega), List.getElem_mem _, ?_⟩
  unfold get
  rw [if_pos h0, List.getElem?_eq_getElem (by omega)]

theorem get_mem {α : Type} (px : List α) (n : Int) (v : α) (h : get px n = some v) : v ∈ px := by
  unfold get at h
  split at h
  · exact List.mem_of_getElem? h
  · cases h

/-- The pixels of an image in the order of the loops. -/
theorem cells_get (W H r c : Int) (hr : 0 ≤ r ∧ r < H) (hc : 0 ≤ c ∧ c < W) :
    get (cells 0 H 0 W) (r * W + c) = some (r, c) := by
  obtain ⟨n, rfl⟩ := Int.eq_ofNat_of_zero_le (show 0 ≤ H by omega)
  obtain ⟨w, rfl⟩ := Int.eq_ofNat_of_zero_le (show 0 ≤ W by omega)
  obtain ⟨i, rfl⟩ := Int.eq_ofNat_of_zero_le hr.1
  obtain ⟨j, rfl⟩ := Int.eq_ofNat_of_zero_le hc.1
  have hi : i < n := by omega
  have hj : j < w := by omega
  have hx : (((i : Int) * w + j)) = ((i * w + j : Nat) : Int) := by push_cast; rfl
  rw [hx]
  unfold get
  rw [if_pos (by positivity), Int.toNat_natCast]
  have key : ∀ (l : List Int) (i : Nat) (a : Int), l[i]? = some a →
      (l.flatMap fun k => (span 0 w).map fun l => (k, l))[i * w + j]? = some (a, (j : Int)) := by
    intro l
    induction l with
    | nil => intro i a h; simp at h
    | cons x l ih =>
      intro i a h
      have hl : ((span 0 (w : Int)).map fun l => (x, l)).length = w := by simp [span]
      rw [List.flatMap_cons]
      cases i with
      | zero =>
        simp only [List.getElem?_cons_zero, Option.some.injEq] at h
        subst h
        rw [zero_mul, zero_add, List.getElem?_append_left (by omega)]
        simp [span, hj]
      | succ i =>
        rw [List.getElem?_cons_succ] at h
        rw [List.getElem?_append_right (by rw [hl]; nlinarith), hl]
        have : (i + 1) * w + j - w = i * w + j := by
          have : (i + 1) * w = i * w + w := by ring
          omega
        rw [this]
        exact ih i a h
  unfold cells
  exact key (span 0 n) i i (by simp [span, hi])

theorem cells_length (W H : Int) (hW : 0 ≤ W) (hH : 0 ≤ H) : ((cells 0 H 0 W).length : Int) = W * H := by
  unfold cells
  rw [List.length_flatMap]
  have e : ((span 0 H).map fun k => ((span 0 W).map fun l => (k, l)).length) = List.replicate H.toNat W.toNat := by
    rw [List.eq_replicate_iff]
    constructor
    · simp [span]
    · intro b hb
      obtain ⟨k, -, rfl⟩ := List.mem_map.1 hb
      simp [span]
  rw [e, List.sum_replicate, smul_eq_mul]
  push_cast
  rw [Int.toNat_of_nonneg hW, Int.toNat_of_nonneg hH, mul_comm]

theorem mapM_ok {α β : Type} (f : α → Option β) (l : List α) (h : ∀ a ∈ l, ∃ b, f a = some b) :
    ∃ out, l.mapM f = some out ∧ out.length = l.length ∧ (∀ b ∈ out, ∃ a ∈ l, f a = some b) ∧
      ∀ (n : Nat) (a : α), l[n]? = some a → out[n]? = f a := by
  induction l with
  | nil => exact ⟨[], rfl, rfl, by simp, by simp⟩
  | cons x l ih =>
    obtain ⟨b, hb⟩ := h x (List.mem_cons_self ..)
    obtain ⟨out, h1, h2, h3, h4⟩ := ih fun a ha => h a (List.mem_cons_of_mem _ ha)
    refine ⟨b :: out, by rw [List.mapM_cons, hb, h1]; rfl, by simp [h2], ?_, ?_⟩
    · intro y hy
      rcases List.mem_cons.1 hy with rfl | hy
      · exact ⟨x, List.mem_cons_self .., hb⟩
      · obtain ⟨a, ha, e⟩ := h3 y hy
        exact ⟨a, List.mem_cons_of_mem _ ha, e⟩
    · intro n a hn
      cases n with
      | zero =>
        simp only [List.getElem?_cons_zero, Option.some.injEq] at hn ⊢
        rw [← hn, hb]
      | succ n =>
        rw [List.getElem?_cons_succ] at hn ⊢
        exact h4 n a hn

/-- A computed image. -/
theorem image_ok {β : Type} (f : Int × Int → Option β) (W H : Int) (hW : 0 ≤ W) (hH : 0 ≤ H)
    (h : ∀ r c, 0 ≤ r ∧ r < H → 0 ≤ c ∧ c < W → ∃ b, f (r, c) = some b) :
    ∃ out, (cells 0 H 0 W).mapM f = some out ∧ (out.length : Int) = W * H ∧
      (∀ b ∈ out, ∃ r c, (0 ≤ r ∧ r < H) ∧ (0 ≤ c ∧ c < W) ∧ f (r, c) = some b) ∧
      ∀ r c, 0 ≤ r ∧ r < H → 0 ≤ c ∧ c < W → get out (r * W + c) = f (r, c) := by
  obtain ⟨out, h1, h2, h3, h4⟩ := mapM_ok f (cells 0 H 0 W) (fun a ha => by
    obtain ⟨hr, hc⟩ := (mem_cells _ _ _ _ _).1 ha
    exact h a.1 a.2 hr hc)
  refine ⟨out, h1, by rw [h2, cells_length W H hW hH], ?_, ?_⟩
  · intro b hb
    obtain ⟨a, ha, e⟩ := h3 b hb
    obtain ⟨hr, hc⟩ := (mem_cells _ _ _ _ _).1 ha
    exact ⟨a.1, a.2, hr, hc, e⟩
  · intro r c hr hc
    have := cells_get W H r c hr hc
    have hp := (idx W H r c hr hc).1
    unfold get at this ⊢
    rw [if_pos hp] at this ⊢
    exact h4 _ _ this

/-! ## Filters -/

theorem window_fold (g : Int × Int → Option K) (f : Int × Int → K) (cs : List (Int × Int)) :
    ∀ (s : K × K) (v : Int × Int → K), (∀ c ∈ cs, g c = some (v c)) →
      cs.foldlM (fun s c => (g c).map fun v => (s.1 + v * f c, s.2 + f c)) s =
        some (s.1 + (cs.map fun c => v c * f c).sum, s.2 + (cs.map f).sum) := by
  induction cs with
  | nil => intro s v _; simp
  | cons c cs ih =>
    intro s v h
    rw [List.foldlM_cons, h c (List.mem_cons_self ..)]
    show cs.foldlM _ (s.1 + v c * f c, s.2 + f c) = _
    rw [ih _ v fun d hd => h d (List.mem_cons_of_mem _ hd)]
    simp only [List.map_cons, List.sum_cons, add_assoc]

/-- A window whose pixels are inside. -/
theorem window_ok (px : List K) (W H : Int) (hl : (px.length : Int) = W * H) (f : Int → K) (w h i j k1 k2 l1 l2 : Int)
    (hr : ∀ k, k1 ≤ k → k < k2 → 0 ≤ i + k - h ∧ i + k - h < H)
    (hc : ∀ l, l1 ≤ l → l < l2 → 0 ≤ j + l - h ∧ j + l - h < W) :
    ∃ v : Int × Int → K, (∀ c ∈ cells k1 k2 l1 l2, get px ((i + c.1 - h) * W + (j + c.2 - h)) = some (v c)) ∧
      window px W f w h i j k1 k2 l1 l2 =
        some (((cells k1 k2 l1 l2).map fun c => v c * f (c.1 * w + c.2)).sum,
          ((cells k1 k2 l1 l2).map fun c => f (c.1 * w + c.2)).sum) := by
  have hg : ∀ c ∈ cells k1 k2 l1 l2, get px ((i + c.1 - h) * W + (j + c.2 - h)) =
      some ((get px ((i + c.1 - h) * W + (j + c.2 - h))).getD 0) := by
    intro c hcc
    obtain ⟨a, b⟩ := (mem_cells _ _ _ _ _).1 hcc
    obtain ⟨x0, x1⟩ := idx W H _ _ (hr c.1 a.1 a.2) (hc c.2 b.1 b.2)
    obtain ⟨v, -, e⟩ := get_lt px _ x0 (by omega)
    rw [e]
    rfl
  refine ⟨fun c => (get px ((i + c.1 - h) * W + (j + c.2 - h))).getD 0, hg, ?_⟩
  unfold window
  rw [window_fold (fun c => get px ((i + c.1 - h) * W + (j + c.2 - h))) (fun c => f (c.1 * w + c.2)) _ (0, 0) _ hg]
  simp only [zero_add]

theorem window_nonneg (px : List K) (W H : Int) (hl : (px.length : Int) = W * H) (f : Int → K) (w h i j k1 k2 l1 l2 : Int)
    (hr : ∀ k, k1 ≤ k → k < k2 → 0 ≤ i + k - h ∧ i + k - h < H)
    (hc : ∀ l, l1 ≤ l → l < l2 → 0 ≤ j + l - h ∧ j + l - h < W) :
    ∃ s, window px W f w h i j k1 k2 l1 l2 = some s ∧ ((∀ x ∈ px, 0 ≤ x) → (∀ n, 0 ≤ f n) → 0 ≤ s.1 ∧ 0 ≤ s.2) := by
  obtain ⟨v, hv, e⟩ := window_ok px W H hl f w h i j k1 k2 l1 l2 hr hc
  refine ⟨_, e, fun hp hf => ⟨List.sum_nonneg ?_, List.sum_nonneg ?_⟩⟩
  · intro x hx
    obtain ⟨c, hc, rfl⟩ := List.mem_map.1 hx
    exact mul_nonneg (hp _ (get_mem _ _ _ (hv c hc))) (hf _)
  · intro x hx
    obtain ⟨c, hc, rfl⟩ := List.mem_map.1 hx
    exact hf _

theorem border_ok (px : List K) (W H : Int) (hl : (px.length : Int) = W * H) (f : Int → K) (w h r c : Int) (hh : 0 ≤ h)
    (hr : 0 ≤ r ∧ r < H) (hc : 0 ≤ c ∧ c < W) :
    ∃ o, border px W H f w h r c = some o ∧ ((∀ x ∈ px, 0 ≤ x) → (∀ n, 0 ≤ f n) → ∀ v, o = some v → 0 ≤ v) := by
  obtain ⟨s, e, hs⟩ := window_nonneg px W H hl f w h r c (if h - r > 0 then h - r else 0) (if H - r < w then H - r else w)
    (if h - c > 0 then h - c else 0) (if W - c < w then W - c else w)
    (fun k h1 h2 => by split at h1 <;> split at h2 <;> omega) (fun k h1 h2 => by split at h1 <;> split at h2 <;> omega)
  refine ⟨if |s.2| < 1 / 10000000000 then none else some (s.1 / s.2), by unfold border; rw [e]; rfl, ?_⟩
  intro hp hf v hv
  split at hv
  · cases hv
  · cases hv
    exact div_nonneg (hs hp hf).1 (hs hp hf).2

theorem inner_ok (px : List K) (W H : Int) (hl : (px.length : Int) = W * H) (f : Int → K) (h r c : Int) :
    ∃ v, inner px W H f (2 * h + 1) h r c = some v ∧ ((∀ x ∈ px, 0 ≤ x) → (∀ n, 0 ≤ f n) → 0 ≤ v) := by
  unfold inner
  split
  · rename_i hi
    obtain ⟨s, e, hs⟩ := window_nonneg px W H hl f (2 * h + 1) h r c 0 (2 * h + 1) 0 (2 * h + 1)
      (fun k h1 h2 => by omega) (fun k h1 h2 => by omega)
    exact ⟨s.1, by rw [e]; rfl, fun hp hf => (hs hp hf).1⟩
  · exact ⟨0, rfl, fun _ _ => le_refl _⟩

theorem passes_ok (o : Option K) (P : K → Prop) (ho : ∀ v, o = some v → P v) (l : List Bool) : ∀ v, P v →
    ∃ u, l.foldlM (fun v pass => if pass then (some o : Option (Option K)).map fun o => o.getD v else some v) v = some u ∧ P u := by
  induction l with
  | nil => intro v hv; exact ⟨v, rfl, hv⟩
  | cons b l ih =>
    intro v hv
    rw [List.foldlM_cons]
    cases b with
    | false => exact ih v hv
    | true =>
      refine ih (o.getD v) ?_
      cases o with
      | none => exact hv
      | some x => exact ho x rfl

theorem pixel_ok (px : List K) (W H : Int) (hl : (px.length : Int) = W * H) (f : Int → K) (h r c : Int) (hh : 0 ≤ h)
    (hr : 0 ≤ r ∧ r < H) (hc : 0 ≤ c ∧ c < W) :
    ∃ v, pixel px W H f (2 * h + 1) h r c = some v ∧ ((∀ x ∈ px, 0 ≤ x) → (∀ n, 0 ≤ f n) → 0 ≤ v) := by
  obtain ⟨v, e, hv⟩ := inner_ok px W H hl f h r c
  obtain ⟨o, e2, ho⟩ := border_ok px W H hl f (2 * h + 1) h r c hh hr hc
  unfold pixel
  rw [e, e2]
  obtain ⟨u, e3, hu⟩ := passes_ok o (fun x => (∀ x ∈ px, 0 ≤ x) → (∀ n, 0 ≤ f n) → 0 ≤ x)
    (fun v hv hp hf => ho hp hf v hv) [decide (r < h), decide (H - h ≤ r), decide (c < h), decide (W - h ≤ c)] v hv
  exact ⟨u, e3, hu⟩

theorem conv_ok (px : List K) (W H : Int) (hl : (px.length : Int) = W * H) (f : Int → K) (h : Int) (hh : 0 ≤ h)
    (hH : h ≤ H) (hW : h ≤ W) :
    ∃ out, conv px W H f (2 * h + 1) = some out ∧ (out.length : Int) = W * H ∧
      ((∀ x ∈ px, 0 ≤ x) → (∀ n, 0 ≤ f n) → ∀ x ∈ out, 0 ≤ x) ∧
      ∀ r c, 0 ≤ r ∧ r < H → 0 ≤ c ∧ c < W → get out (r * W + c) = pixel px W H f (2 * h + 1) h r c := by
  have e : (2 * h + 1 - 1) / 2 = h := by omega
  obtain ⟨out, h1, h2, h3, h4⟩ := image_ok (fun c => pixel px W H f (2 * h + 1) h c.1 c.2) W H (by omega) (by omega)
    (fun r c hr hc => (pixel_ok px W H hl f h r c hh hr hc).imp fun _ h => h.1)
  refine ⟨out, ?_, h2, ?_, h4⟩
  · unfold conv
    rw [e]
    dsimp only
    rw [if_neg (by omega), h1]
  · intro hp hf x hx
    obtain ⟨r, c, hr, hc, ex⟩ := h3 x hx
    obtain ⟨v, ev, hv⟩ := pixel_ok px W H hl f h r c hh hr hc
    rw [ev] at ex
    cases ex
    exact hv hp hf

/-- C292: an image that is not smaller than half of the filter is filtered without reading outside of it, for every filter
of odd width. -/
theorem c292_inside (px : List K) (W H : Int) (hl : (px.length : Int) = W * H) (f : Int → K) (h : Int) (hh : 0 ≤ h)
    (hH : h ≤ H) (hW : h ≤ W) : ∃ out, conv px W H f (2 * h + 1) = some out ∧ (out.length : Int) = W * H :=
  (conv_ok px W H hl f h hh hH hW).imp fun _ h => ⟨h.1, h.2.1⟩

/-- Outside of the border passes, a pixel is that of the first pass. -/
theorem pixel_inner (px : List K) (W H : Int) (f : Int → K) (w h r c : Int) (h1 : h ≤ r) (h2 : r < H - h) (h3 : h ≤ c)
    (h4 : c < W - h) : pixel px W H f w h r c = inner px W H f w h r c := by
  unfold pixel
  rw [decide_eq_false (by omega), decide_eq_false (by omega), decide_eq_false (by omega), decide_eq_false (by omega)]
  cases inner px W H f w h r c <;> rfl

/-- C292: away from the borders, and from the last row and column before them, each pixel is the sum of the pixels around
it with the weights of the filter. Missing: the last row and column, and the borders. -/
theorem c292_interior_partial (px : List K) (W H : Int) (hl : (px.length : Int) = W * H) (f : Int → K) (h : Int)
    (hh : 0 ≤ h) (hH : h ≤ H) (hW : h ≤ W) (out : List K) (ho : conv px W H f (2 * h + 1) = some out) (r c : Int)
    (h1 : h ≤ r) (h2 : r < H - h - 1) (h3 : h ≤ c) (h4 : c < W - h - 1) :
    ∃ v : Int → Int → K, (∀ a b, r - h ≤ a → a ≤ r + h → c - h ≤ b → b ≤ c + h → get px (a * W + b) = some (v a b)) ∧
      get out (r * W + c) = some ((cells 0 (2 * h + 1) 0 (2 * h + 1)).map fun k =>
        v (r + k.1 - h) (c + k.2 - h) * f (k.1 * (2 * h + 1) + k.2)).sum := by
  obtain ⟨out', e, -, -, hg⟩ := conv_ok px W H hl f h hh hH hW
  rw [ho] at e
  cases e
  obtain ⟨v, hv, e⟩ := window_ok px W H hl f (2 * h + 1) h r c 0 (2 * h + 1) 0 (2 * h + 1)
      (fun k h1 h2 => by omega) (fun k h1 h2 => by omega)
  refine ⟨fun a b => v (a - r + h, b - c + h), ?_, ?_⟩
  · intro a b ha hb hc hd
    have := hv (a - r + h, b - c + h) ((mem_cells _ _ _ _ _).2 ⟨⟨by dsimp only; omega, by dsimp only; omega⟩, by dsimp only; omega, by dsimp only; omega⟩)
    have ea : r + (a - r + h) - h = a := by omega
    have eb : c + (b - c + h) - h = b := by omega
    dsimp only at this ⊢
    rw [ea, eb] at this
    exact this
  · rw [hg r c (by omega) (by omega), pixel_inner _ _ _ _ _ _ _ _ h1 (by omega) h3 (by omega)]
    unfold inner
    rw [if_pos (by omega), e]
    show some (List.sum _) = some (List.sum _)
    congr 2
    refine List.map_congr_left fun k _ => ?_
    have ea : r + k.1 - h - r + h = k.1 := by omega
    have eb : c + k.2 - h - c + h = k.2 := by omega
    dsimp only
    rw [ea, eb]

/-- C292, violated: the row before the lower border, and the column before the right border, are always zero, whatever the
image is. -/
theorem c292_zero_violated (px : List K) (W H : Int) (hl : (px.length : Int) = W * H) (f : Int → K) (h : Int)
    (hh : 0 ≤ h) (hH : 2 * h < H) (hW : 2 * h < W) :
    ∃ out, conv px W H f (2 * h + 1) = some out ∧
      (∀ c, h ≤ c → c < W - h → get out ((H - h - 1) * W + c) = some 0) ∧
      (∀ r, h ≤ r → r < H - h → get out (r * W + (W - h - 1)) = some 0) := by
  obtain ⟨out, e, -, -, hg⟩ := conv_ok px W H hl f h hh (by omega) (by omega)
  refine ⟨out, e, ?_, ?_⟩
  · intro c h1 h2
    rw [hg _ c (by omega) (by omega), pixel_inner _ _ _ _ _ _ _ _ (by omega) (by omega) h1 h2]
    unfold inner
    rw [if_neg (by omega)]
  · intro r h1 h2
    rw [hg r _ (by omega) (by omega), pixel_inner _ _ _ _ _ _ _ _ h1 h2 (by omega) (by omega)]
    unfold inner
    rw [if_neg (by omega)]

theorem border_congr (px qx : List K) (W H : Int) (f : Int → K) (h r c : Int) (hh : 0 ≤ h)
    (heq : ∀ a b, 0 ≤ a → a < H - h → 0 ≤ b → b < W - h → get px (a * W + b) = get qx (a * W + b))
    (hr : 0 ≤ r ∧ r < H) (hc : 0 ≤ c ∧ c < W) (hrl : H - h ≤ r + h + 1) (hcl : W - h ≤ c + h + 1) :
    border px W H f (2 * h + 1) h r c = border qx W H f (2 * h + 1) h r c := by
  unfold border window
  congr 1
  generalize hcs : cells _ _ _ _ = cs
  have hm : ∀ d ∈ cs, get px ((r + d.1 - h) * W + (c + d.2 - h)) = get qx ((r + d.1 - h) * W + (c + d.2 - h)) := by
    intro d hd
    rw [← hcs, mem_cells] at hd
    obtain ⟨⟨a1, a2⟩, b1, b2⟩ := hd
    have a3 : h - r ≤ d.1 := by split at a1 <;> omega
    have b3 : h - c ≤ d.2 := by split at b1 <;> omega
    have a4 : d.1 < H - r := by split at a2 <;> omega
    have b4 : d.2 < W - c := by split at b2 <;> omega
    exact heq _ _ (by omega) (by omega) (by omega) (by omega)
  clear hcs
  generalize ((0, 0) : K × K) = s
  induction cs generalizing s with
  | nil => rfl
  | cons d cs ih =>
    rw [List.foldlM_cons, List.foldlM_cons, hm d (List.mem_cons_self ..)]
    cases get qx ((r + d.1 - h) * W + (c + d.2 - h)) with
    | none => rfl
    | some v => exact ih (fun d hd => hm d (List.mem_cons_of_mem _ hd)) _

/-- C292, violated: in the lower right corner, as high and wide as half of the filter, the result does not depend on the
pixels there: two images that differ only in their last rows and columns have the same corner. -/
theorem c292_corner_violated (px qx : List K) (W H : Int) (hl : (px.length : Int) = W * H) (hq : (qx.length : Int) = W * H)
    (f : Int → K) (h : Int) (hh : 0 ≤ h) (hH : 2 * h < H) (hW : 2 * h < W)
    (heq : ∀ a b, 0 ≤ a → a < H - h → 0 ≤ b → b < W - h → get px (a * W + b) = get qx (a * W + b)) :
    ∃ out oqx, conv px W H f (2 * h + 1) = some out ∧ conv qx W H f (2 * h + 1) = some oqx ∧
      ∀ r c, H - h ≤ r → r < H → W - h ≤ c → c < W → get out (r * W + c) = get oqx (r * W + c) := by
  obtain ⟨out, e, -, -, hg⟩ := conv_ok px W H hl f h hh (by omega) (by omega)
  obtain ⟨oqx, e', -, -, hg'⟩ := conv_ok qx W H hq f h hh (by omega) (by omega)
  refine ⟨out, oqx, e, e', ?_⟩
  intro r c h1 h2 h3 h4
  rw [hg r c (by omega) (by omega), hg' r c (by omega) (by omega)]
  unfold pixel
  have hi : ∀ p : List K, inner p W H f (2 * h + 1) h r c = some 0 := by
    intro p
    unfold inner
    rw [if_neg (by omega)]
  rw [hi, hi, border_congr px qx W H f h r c hh heq (by omega) (by omega) (by omega) (by omega)]

end Verif.Poi
