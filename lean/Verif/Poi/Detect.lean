import Verif.Poi.Props

/-!
# Property C293: points of interest
-/

namespace Verif.Poi

variable {K : Type} [Field K] [LinearOrder K] [IsStrictOrderedRing K]

/-! ## Images -/

theorem gradient_ok (px old : List K) (W H d : Int) (hl : (px.length : Int) = W * H) (ho : (old.length : Int) = W * H)
    (hd : d = 1 ∨ d = W) (hW : 0 ≤ W) (hH : 0 ≤ H) :
    ∃ out, gradient px old W H d = some out ∧ (out.length : Int) = W * H ∧
      ∀ r c, 1 ≤ r ∧ r < H - 1 → 1 ≤ c ∧ c < W - 1 →
        get out (r * W + c) = (get px (r * W + c + d)).bind fun a => (get px (r * W + c - d)).map fun b => (a - b) / 2 := by
  have inside : ∀ r c, 1 ≤ r ∧ r < H - 1 → 1 ≤ c ∧ c < W - 1 →
      (∃ a, get px (r * W + c + d) = some a) ∧ ∃ b, get px (r * W + c - d) = some b := by
    intro r c hr hc
    rcases hd with rfl | rfl
    · obtain ⟨x0, x1⟩ := idx W H r (c + 1) (by omega) (by omega)
      obtain ⟨y0, y1⟩ := idx W H r (c - 1) (by omega) (by omega)
      obtain ⟨a, -, ea⟩ := get_lt px (r * W + c + 1) (by omega) (by omega)
      obtain ⟨b, -, eb⟩ := get_lt px (r * W + c - 1) (by omega) (by omega)
      exact ⟨⟨a, ea⟩, b, eb⟩
    · obtain ⟨x0, x1⟩ := idx d H (r + 1) c (by omega) (by omega)
      obtain ⟨y0, y1⟩ := idx d H (r - 1) c (by omega) (by omega)
      have e1 : (r + 1) * d + c = r * d + c + d := by ring
      have e2 : (r - 1) * d + c = r * d + c - d := by ring
      obtain ⟨a, -, ea⟩ := get_lt px (r * d + c + d) (by omega) (by omega)
      obtain ⟨b, -, eb⟩ := get_lt px (r * d + c - d) (by omega) (by omega)
      exact ⟨⟨a, ea⟩, b, eb⟩
  obtain ⟨out, h1, h2, -, h4⟩ := image_ok (fun c : Int × Int =>
    if 1 ≤ c.1 ∧ c.1 < H - 1 ∧ 1 ≤ c.2 ∧ c.2 < W - 1 then
      (get px (c.1 * W + c.2 + d)).bind fun a => (get px (c.1 * W + c.2 - d)).map fun b => (a - b) / 2
    else get old (c.1 * W + c.2)) W H hW hH (by
      intro r c hr hc
      dsimp only
      split
      · rename_i h
        obtain ⟨⟨a, ea⟩, b, eb⟩ := inside r c ⟨h.1, h.2.1⟩ h.2.2
        rw [ea, eb]
        exact ⟨_, rfl⟩
      · obtain ⟨x0, x1⟩ := idx W H r c hr hc
        obtain ⟨a, -, ea⟩ := get_lt old (r * W + c) x0 (by omega)
        exact ⟨a, ea⟩)
  refine ⟨out, h1, h2, ?_⟩
  intro r c hr hc
  rw [h4 r c (by omega) (by omega)]
  dsimp only
  rw [if_pos (by omega)]

theorem pointwise_length (op : K → K → K) (a b : List K) (n : Int) (ha : (a.length : Int) = n) (hb : (b.length : Int) = n) :
    ((pointwise op a b).length : Int) = n := by
  unfold pointwise
  rw [List.length_zipWith]
  omega

theorem divide_ok (a b : List K) (n : Int) (ha : (a.length : Int) = n) (hb : (b.length : Int) = n) (h : ∀ x ∈ b, x ≠ 0) :
    ∃ out, divide a b = some out ∧ (out.length : Int) = n := by
  obtain ⟨out, h1, h2, -⟩ := mapM_ok (fun v : K × K => if v.2 = 0 then none else some (v.1 / v.2)) (a.zip b) (by
    intro v hv
    rw [if_neg (h v.2 (List.of_mem_zip hv).2)]
    exact ⟨_, rfl⟩)
  refine ⟨out, h1, ?_⟩
  rw [h2, List.length_zip]
  omega

theorem image_some (target base : List Int) (nodata : Int) (n : Int) (ht : (target.length : Int) = n)
    (hb : (base.length : Int) = n) (img : List Int) (h : image K target base nodata = some img) :
    (img.length : Int) = n ∧ (∃ v ∈ img, 0 < v) ∧
      ∀ m v, get img m = some v → v ≠ nodata → (∃ t, get target m = some t ∧ 0 < t) ∧ ∃ b, get base m = some b ∧ 0 < b := by
  unfold image at h
  dsimp only at h
  split at h
  · cases h
  · rename_i hc
    cases h
    generalize hs : (if (variance target (mask target base) : K) ≤ variance base (mask target base) then target else base) = src
    have hsl : (src.length : Int) = n := by rw [← hs]; split <;> assumption
    have hml : ((mask target base).length : Int) = n := by
      unfold mask
      rw [List.length_map, List.length_zip]
      omega
    have hmask : ∀ (k : Nat) (b : Bool), (mask target base)[k]? = some b →
        ∃ t u, target[k]? = some t ∧ base[k]? = some u ∧ b = decide (t > 0 ∧ u > 0) := by
      intro k b hk
      unfold mask at hk
      rw [List.getElem?_map, Option.map_eq_some_iff] at hk
      obtain ⟨v, hv, rfl⟩ := hk
      rw [List.getElem?_zip_eq_some] at hv
      exact ⟨v.1, v.2, hv.1, hv.2, rfl⟩
    refine ⟨?_, ?_, ?_⟩
    · unfold applyMask
      rw [List.length_map, List.length_zip]
      omega
    · have : ∃ b ∈ mask target base, b = true := by
        by_contra hne
        apply hc
        rw [List.countP_eq_zero]
        intro b hb
        simp only [decide_eq_true_eq]
        exact fun e => hne ⟨b, hb, e⟩
      obtain ⟨b, hbm, rfl⟩ := this
      obtain ⟨k, hk⟩ := List.mem_iff_getElem?.1 hbm
      obtain ⟨t, u, h1, h2, h3⟩ := hmask k true hk
      have h3 := of_decide_eq_true h3.symm
      have hsrc : ∃ s, src[k]? = some s ∧ 0 < s := by
        rw [← hs]
        split
        · exact ⟨t, h1, h3.1⟩
        · exact ⟨u, h2, h3.2⟩
      obtain ⟨s, hs1, hs2⟩ := hsrc
      refine ⟨s, ?_, hs2⟩
      unfold applyMask
      rw [List.mem_map]
      refine ⟨(s, true), ?_, rfl⟩
      rw [List.mem_iff_getElem?]
      exact ⟨k, List.getElem?_zip_eq_some.2 ⟨hs1, hk⟩⟩
    · intro m v hv hne
      unfold get at hv
      split at hv
      · rename_i hm
        unfold applyMask at hv
        rw [List.getElem?_map, Option.map_eq_some_iff] at hv
        obtain ⟨z, hz, e⟩ := hv
        rw [List.getElem?_zip_eq_some] at hz
        obtain ⟨t, u, h1, h2, h3⟩ := hmask _ _ hz.2
        split at e
        · exact absurd e.symm hne
        · rename_i hz2
          have hz3 : z.2 = true := by simpa using hz2
          rw [hz3] at h3
          have h4 := of_decide_eq_true h3.symm
          unfold get
          rw [if_pos hm, if_pos hm]
          exact ⟨⟨t, h1, h4.1⟩, u, h2, h4.2⟩
      · cases hv

theorem scaled_ok (img : List Int) (h : ∃ v ∈ img, 0 < v) :
    ∃ out : List K, scaled img = some out ∧ out.length = img.length := by
  have key : ∀ (l : List Int) (m : K), (m ≤ l.foldl (fun (m : K) (v : Int) => if (v : K) > m then (v : K) else m) m) ∧
      ∀ v ∈ l, (v : K) ≤ l.foldl (fun (m : K) (v : Int) => if (v : K) > m then (v : K) else m) m := by
    intro l
    induction l with
    | nil => intro m; exact ⟨le_refl _, by simp⟩
    | cons x l ih =>
      intro m
      rw [List.foldl_cons]
      obtain ⟨h1, h2⟩ := ih (if (x : K) > m then (x : K) else m)
      have h3 : m ≤ (if (x : K) > m then (x : K) else m) ∧ (x : K) ≤ (if (x : K) > m then (x : K) else m) := by
        split
        · rename_i h; exact ⟨le_of_lt h, le_refl _⟩
        · rename_i h; exact ⟨le_refl _, not_lt.1 h⟩
      refine ⟨h3.1.trans h1, ?_⟩
      intro v hv
      rcases List.mem_cons.1 hv with rfl | hv
      · exact h3.2.trans h1
      · exact h2 v hv
  obtain ⟨v, hv, hp⟩ := h
  have hpos : (0 : K) < img.foldl (fun (m : K) (v : Int) => if (v : K) > m then (v : K) else m) 0 :=
    lt_of_lt_of_le (by exact_mod_cast hp) ((key img 0).2 v hv)
  unfold scaled
  dsimp only
  rw [if_neg (fun h => hpos.ne' h.1)]
  exact ⟨_, rfl, by simp⟩

/-! ## Detection -/

theorem findValue_ok (px : List Int) (W H target : Int) (hl : (px.length : Int) = W * H) (cs : List (Int × Int)) :
    ∃ b, findValue px W H target cs = some b ∧
      (b = false ↔ ∀ c ∈ cs, 0 ≤ c.1 → c.1 < H → 0 ≤ c.2 → c.2 < W → get px (c.1 * W + c.2) ≠ some target) := by
  induction cs with
  | nil => exact ⟨false, rfl, by simp⟩
  | cons c cs ih =>
    obtain ⟨b, e, hb⟩ := ih
    rw [findValue]
    by_cases h : c.1 < 0 ∨ c.1 ≥ H ∨ c.2 < 0 ∨ c.2 ≥ W
    · rw [if_pos h]
      refine ⟨b, e, hb.trans ?_⟩
      rw [List.forall_mem_cons]
      exact ⟨fun h' => ⟨fun _ _ _ _ => by omega, h'⟩, fun h' => h'.2⟩
    · rw [if_neg h]
      obtain ⟨x0, x1⟩ := idx W H c.1 c.2 (by omega) (by omega)
      obtain ⟨v, -, ev⟩ := get_lt px (c.1 * W + c.2) x0 (by omega)
      rw [ev]
      by_cases hv : v = target
      · refine ⟨true, if_pos hv, ⟨fun h => by simp at h, ?_⟩⟩
        intro hall
        exact absurd (by rw [ev, hv]) (hall c (List.mem_cons_self ..) (by omega) (by omega) (by omega) (by omega))
      · refine ⟨b, (if_neg hv).trans e, hb.trans ?_⟩
        rw [List.forall_mem_cons]
        refine ⟨fun h' => ⟨fun _ _ _ _ => ?_, h'⟩, fun h' => h'.2⟩
        rw [ev]
        simpa using hv

/-- What makes a point: its surroundings, the sign changes of the gradients, and the strength. -/
def Spec.IsPoint (img : List Int) (g0 g1 g2 : List K) (W H nodata : Int) (mean : K) (c : Int × Int) : Prop :=
  (∀ a b, c.1 - 7 ≤ a → a ≤ c.1 + 7 → c.2 - 7 ≤ b → b ≤ c.2 + 7 → get img (a * W + b) ≠ some nodata) ∧
    (∃ x, get g1 (c.1 * W + c.2) = some x ∧ 0 < x) ∧ (∃ x, get g1 (c.1 * W + (c.2 + 1)) = some x ∧ x < 0) ∧
    (∃ x, get g2 (c.1 * W + c.2) = some x ∧ 0 < x) ∧ (∃ x, get g2 ((c.1 + 1) * W + c.2) = some x ∧ x < 0) ∧
    ∃ x, get g0 (c.1 * W + c.2) = some x ∧ mean < x

theorem isPoint_ok (img : List Int) (g0 g1 g2 : List K) (W H nodata : Int) (mean : K) (hi : (img.length : Int) = W * H)
    (h0 : (g0.length : Int) = W * H) (h1 : (g1.length : Int) = W * H) (h2 : (g2.length : Int) = W * H) (c : Int × Int)
    (hr : 7 ≤ c.1 ∧ c.1 < H - 7) (hc : 7 ≤ c.2 ∧ c.2 < W - 7) :
    ∃ b, isPoint img g0 g1 g2 W H nodata mean c = some b ∧ (b = true ↔ Spec.IsPoint img g0 g1 g2 W H nodata mean c) := by
  obtain ⟨x0, x1⟩ := idx W H c.1 c.2 (by omega) (by omega)
  obtain ⟨y0, y1⟩ := idx W H c.1 (c.2 + 1) (by omega) (by omega)
  obtain ⟨z0, z1⟩ := idx W H (c.1 + 1) c.2 (by omega) (by omega)
  obtain ⟨va, -, ea⟩ := get_lt g1 (c.1 * W + c.2) x0 (by omega)
  obtain ⟨vb, -, eb⟩ := get_lt g1 (c.1 * W + (c.2 + 1)) y0 (by omega)
  obtain ⟨vd, -, ed⟩ := get_lt g2 (c.1 * W + c.2) x0 (by omega)
  obtain ⟨ve, -, ee⟩ := get_lt g2 ((c.1 + 1) * W + c.2) z0 (by omega)
  obtain ⟨vs, -, es⟩ := get_lt g0 (c.1 * W + c.2) x0 (by omega)
  obtain ⟨b, ef, hb⟩ := findValue_ok img W H nodata hi (cells (c.1 - 7) (c.1 + 7 + 1) (c.2 - 7) (c.2 + 7 + 1))
  have hw : b = false ↔ ∀ a d, c.1 - 7 ≤ a → a ≤ c.1 + 7 → c.2 - 7 ≤ d → d ≤ c.2 + 7 → get img (a * W + d) ≠ some nodata := by
    rw [hb]
    constructor
    · intro h a d k1 k2 k3 k4
      exact h (a, d) ((mem_cells _ _ _ _ _).2 ⟨⟨k1, by dsimp only; omega⟩, k3, by dsimp only; omega⟩) (by dsimp only; omega) (by dsimp only; omega) (by dsimp only; omega) (by dsimp only; omega)
    · intro h q hq _ _ _ _
      obtain ⟨k1, k2⟩ := (mem_cells _ _ _ _ _).1 hq
      exact h q.1 q.2 (by omega) (by omega) (by omega) (by omega)
  unfold isPoint Spec.IsPoint
  rw [ef, ← hw]
  cases b with
  | true => exact ⟨false, rfl, by simp⟩
  | false =>
    have eb' : get g1 (c.1 * W + c.2 + 1) = some vb := by rw [add_assoc]; exact eb
    refine ⟨decide (va > 0 ∧ vb < 0 ∧ vd > 0 ∧ ve < 0 ∧ vs > mean), ?_, ?_⟩
    · show (get g1 (c.1 * W + c.2)).bind _ = _
      rw [ea, eb', ed, ee, es]
      rfl
    · rw [ea, eb, ed, ee, es]
      simp

theorem select_ok {α : Type} (p : α → Option Bool) (l : List α) (h : ∀ a ∈ l, ∃ b, p a = some b) :
    select p l = some (l.filter fun a => p a = some true) := by
  induction l with
  | nil => rfl
  | cons a l ih =>
    obtain ⟨b, e⟩ := h a (List.mem_cons_self ..)
    rw [select, e, ih fun a ha => h a (List.mem_cons_of_mem _ ha), List.filter_cons, e]
    cases b <;> rfl

/-- The images that the detection uses. -/
structure Full (img : List Int) (g0 g1 g2 : List K) (W H : Int) : Prop where
  i : (img.length : Int) = W * H
  h0 : (g0.length : Int) = W * H
  h1 : (g1.length : Int) = W * H
  h2 : (g2.length : Int) = W * H

open Classical in
theorem scan_ok (img : List Int) (g0 g1 g2 : List K) (W H nodata : Int) (mean : K) (hf : Full img g0 g1 g2 W H) :
    scan img g0 g1 g2 W H nodata mean =
      some ((cells 7 (H - 7) 7 (W - 7)).filter fun c => Spec.IsPoint img g0 g1 g2 W H nodata mean c) := by
  unfold scan
  have hp : ∀ c ∈ cells 7 (H - 7) 7 (W - 7), ∃ b, isPoint img g0 g1 g2 W H nodata mean c = some b ∧
      (b = true ↔ Spec.IsPoint img g0 g1 g2 W H nodata mean c) := fun c hc => by
    obtain ⟨hr, hc⟩ := (mem_cells _ _ _ _ _).1 hc
    exact isPoint_ok img g0 g1 g2 W H nodata mean hf.i hf.h0 hf.h1 hf.h2 c hr hc
  rw [select_ok _ _ fun c hc => (hp c hc).imp fun _ h => h.1]
  congr 1
  refine List.filter_congr fun c hc => ?_
  obtain ⟨b, e, hb⟩ := hp c hc
  rw [e]
  cases b with
  | true => simp [hb.1 rfl]
  | false =>
    have : ¬ Spec.IsPoint img g0 g1 g2 W H nodata mean c := fun h => by simpa using hb.2 h
    simp [this]

theorem threshold_ok (count : K → Option Nat) (g : K → Nat) (hg : ∀ t, count t = some (g t)) (minimum : Nat) (n : Nat) :
    ∀ mean, ∃ k, k ≤ n ∧ threshold count minimum n mean = some (mean / 2 ^ k) ∧
      (∀ i, i + 1 < k → g (mean / 2 ^ i) < minimum) ∧ (k < n → 1 ≤ k ∧ minimum ≤ g (mean / 2 ^ (k - 1))) := by
  induction n with
  | zero => intro mean; exact ⟨0, le_refl _, by simp [threshold], by omega, by omega⟩
  | succ n ih =>
    intro mean
    rw [threshold, hg]
    by_cases h : g mean < minimum
    · obtain ⟨k, h1, h2, h3, h4⟩ := ih (mean / 2)
      have hd : ∀ i, mean / 2 / 2 ^ i = mean / 2 ^ (i + 1) := by
        intro i
        rw [div_div, pow_succ, mul_comm]
      refine ⟨k + 1, by omega, ?_, ?_, ?_⟩
      · show (if g mean < minimum then _ else _) = _
        rw [if_pos h, h2, hd]
      · intro i hi
        cases i with
        | zero => simpa using h
        | succ i => rw [← hd]; exact h3 i (by omega)
      · intro hk
        obtain ⟨h5, h6⟩ := h4 (by omega)
        refine ⟨by omega, ?_⟩
        rw [hd] at h6
        have : k - 1 + 1 = k + 1 - 1 := by omega
        rw [← this]
        exact h6
    · refine ⟨1, by omega, ?_, by omega, ?_⟩
      · show (if g mean < minimum then _ else _) = _
        rw [if_neg h, pow_one]
      · intro _
        simpa using not_lt.1 h

open Classical in
theorem detect_ok (img : List Int) (g0 g1 g2 : List K) (W H nodata : Int) (mean : K) (minimum : Nat)
    (hf : Full img g0 g1 g2 W H) : ∃ k, k ≤ 10 ∧ detect img g0 g1 g2 W H nodata mean minimum =
      some ((cells 7 (H - 7) 7 (W - 7)).filter fun c => Spec.IsPoint img g0 g1 g2 W H nodata (mean / 2 ^ k) c) ∧
      (∀ i, i + 1 < k → ((cells 7 (H - 7) 7 (W - 7)).filter fun c =>
        Spec.IsPoint img g0 g1 g2 W H nodata (mean / 2 ^ i) c).length < minimum) ∧
      (k < 10 → 1 ≤ k ∧ minimum ≤ ((cells 7 (H - 7) 7 (W - 7)).filter fun c =>
        Spec.IsPoint img g0 g1 g2 W H nodata (mean / 2 ^ (k - 1)) c).length) := by
  obtain ⟨k, h1, h2, h3, h4⟩ := threshold_ok (fun t => (scan img g0 g1 g2 W H nodata t).map List.length)
    (fun t => ((cells 7 (H - 7) 7 (W - 7)).filter fun c => Spec.IsPoint img g0 g1 g2 W H nodata t c).length)
    (fun t => by rw [scan_ok _ _ _ _ _ _ _ _ hf]; rfl) minimum 10 mean
  refine ⟨k, h1, ?_, h3, h4⟩
  unfold detect
  rw [h2]
  show (scan img g0 g1 g2 W H nodata (mean / 2 ^ k)).bind _ = _
  rw [scan_ok _ _ _ _ _ _ _ _ hf]
  simp

/-- C293: the points are exactly the pixels, row by row, at least seven pixels from the border, with data all around, with a
local maximum of strength in both directions, and with a strength above a threshold, which is the mean, halved between
one and ten times. Each is stored once, in memory that was counted for it. -/
theorem c293_points (img : List Int) (g0 g1 g2 : List K) (W H nodata : Int) (mean : K) (minimum : Nat)
    (hi : (img.length : Int) = W * H) (h0 : (g0.length : Int) = W * H) (h1 : (g1.length : Int) = W * H)
    (h2 : (g2.length : Int) = W * H) :
    ∃ pts k, 1 ≤ k ∧ k ≤ 10 ∧ detect img g0 g1 g2 W H nodata mean minimum = some pts ∧ pts.Nodup ∧
      ∀ r c, (r, c) ∈ pts ↔ (7 ≤ r ∧ r < H - 7) ∧ (7 ≤ c ∧ c < W - 7) ∧
        Spec.IsPoint img g0 g1 g2 W H nodata (mean / 2 ^ k) (r, c) := by
  classical
  obtain ⟨k, hk, e, -, h4⟩ := detect_ok img g0 g1 g2 W H nodata mean minimum ⟨hi, h0, h1, h2⟩
  refine ⟨_, k, by rcases lt_or_eq_of_le hk with h | h <;> [exact (h4 h).1; omega], hk, e, (cells_nodup _ _ _ _).filter _, ?_⟩
  intro r c
  rw [List.mem_filter, mem_cells, decide_eq_true_eq]
  exact and_assoc

/-- C293: if at least `minimum` points have a strength above a 512th of a mean that is not negative, at least so many are
found. -/
theorem c293_enough (img : List Int) (g0 g1 g2 : List K) (W H nodata : Int) (mean : K) (minimum : Nat)
    (hi : (img.length : Int) = W * H) (h0 : (g0.length : Int) = W * H) (h1 : (g1.length : Int) = W * H)
    (h2 : (g2.length : Int) = W * H) (hm : 0 ≤ mean) (cs : List (Int × Int)) (hn : cs.Nodup) (hc : minimum ≤ cs.length)
    (hp : ∀ c ∈ cs, (7 ≤ c.1 ∧ c.1 < H - 7) ∧ (7 ≤ c.2 ∧ c.2 < W - 7) ∧
      Spec.IsPoint img g0 g1 g2 W H nodata (mean / 512) c) :
    ∃ pts, detect img g0 g1 g2 W H nodata mean minimum = some pts ∧ minimum ≤ pts.length := by
  classical
  obtain ⟨k, hk, e, -, h4⟩ := detect_ok img g0 g1 g2 W H nodata mean minimum ⟨hi, h0, h1, h2⟩
  refine ⟨_, e, ?_⟩
  have lower : ∀ s t : K, s ≤ t → ∀ c, Spec.IsPoint img g0 g1 g2 W H nodata t c → Spec.IsPoint img g0 g1 g2 W H nodata s c := by
    rintro s t hst c ⟨q1, q2, q3, q4, q5, x, hx, hlt⟩
    exact ⟨q1, q2, q3, q4, q5, x, hx, lt_of_le_of_lt hst hlt⟩
  rcases lt_or_eq_of_le hk with h | h
  · obtain ⟨h5, h6⟩ := h4 h
    refine h6.trans ?_
    rw [← List.countP_eq_length_filter, ← List.countP_eq_length_filter]
    refine List.countP_mono_left fun c _ hc => ?_
    rw [decide_eq_true_eq] at hc ⊢
    refine lower _ _ ?_ c hc
    exact div_le_div_of_nonneg_left hm (by positivity) (pow_le_pow_right₀ (by norm_num) (by omega))
  · subst h
    refine hc.trans ?_
    refine (List.subperm_of_subset hn ?_).length_le
    intro c hcs
    obtain ⟨p1, p2, p3⟩ := hp c hcs
    rw [List.mem_filter, mem_cells, decide_eq_true_eq]
    refine ⟨⟨p1, p2⟩, lower _ _ ?_ c p3⟩
    refine div_le_div_of_nonneg_left hm (by norm_num) (by norm_num)

/-- C293: the points do not depend on what the memory of the gradients held before. -/
theorem c293_fresh (img : List Int) (g0 o1 o2 p1 p2 : List K) (W H nodata : Int) (mean : K) (minimum : Nat)
    (hW : 0 ≤ W) (hH : 0 ≤ H)
    (hi : (img.length : Int) = W * H) (h0 : (g0.length : Int) = W * H) (h1 : (o1.length : Int) = W * H)
    (h2 : (o2.length : Int) = W * H) (h3 : (p1.length : Int) = W * H) (h4 : (p2.length : Int) = W * H) :
    ∃ a b c d, gradient g0 o1 W H 1 = some a ∧ gradient g0 o2 W H W = some b ∧ gradient g0 p1 W H 1 = some c ∧
      gradient g0 p2 W H W = some d ∧
      detect img g0 a b W H nodata mean minimum = detect img g0 c d W H nodata mean minimum := by
  classical
  obtain ⟨a, ea, la, ga⟩ := gradient_ok g0 o1 W H 1 h0 h1 (Or.inl rfl) hW hH
  obtain ⟨b, eb, lb, gb⟩ := gradient_ok g0 o2 W H W h0 h2 (Or.inr rfl) hW hH
  obtain ⟨c, ec, lc, gc⟩ := gradient_ok g0 p1 W H 1 h0 h3 (Or.inl rfl) hW hH
  obtain ⟨d, ed, ld, gd⟩ := gradient_ok g0 p2 W H W h0 h4 (Or.inr rfl) hW hH
  refine ⟨a, b, c, d, ea, eb, ec, ed, ?_⟩
  have hs : ∀ t, scan img g0 a b W H nodata t = scan img g0 c d W H nodata t := by
    intro t
    rw [scan_ok _ _ _ _ _ _ _ _ ⟨hi, h0, la, lb⟩, scan_ok _ _ _ _ _ _ _ _ ⟨hi, h0, lc, ld⟩]
    congr 1
    refine List.filter_congr fun q hq => ?_
    obtain ⟨hr, hc⟩ := (mem_cells _ _ _ _ _).1 hq
    unfold Spec.IsPoint
    rw [ga q.1 q.2 (by omega) (by omega), ga q.1 (q.2 + 1) (by omega) (by omega), gb q.1 q.2 (by omega) (by omega),
      gb (q.1 + 1) q.2 (by omega) (by omega), gc q.1 q.2 (by omega) (by omega), gc q.1 (q.2 + 1) (by omega) (by omega),
      gd q.1 q.2 (by omega) (by omega), gd (q.1 + 1) q.2 (by omega) (by omega)]
  unfold detect
  simp only [hs]

/-- C293: the whole search ends without reading outside of the images and without a division by zero, for two images of
the same size with at least seven rows and columns, and filters without negative weights. Each point is at least seven
pixels from the border, and all pixels up to seven rows and columns from it have data in both images. -/
theorem c293_search (target base : List Int) (W H nodata : Int) (f7 f2 : Int → K) (minimum : Nat) (hW : 7 ≤ W) (hH : 7 ≤ H)
    (ht : (target.length : Int) = W * H) (hb : (base.length : Int) = W * H) (hf : ∀ n, 0 ≤ f2 n) :
    ∃ pts, points target base W H nodata f7 f2 5 15 minimum = some pts ∧ pts.Nodup ∧
      ∀ r c, (r, c) ∈ pts → (7 ≤ r ∧ r < H - 7) ∧ (7 ≤ c ∧ c < W - 7) ∧
        ∀ a b, r - 7 ≤ a → a ≤ r + 7 → c - 7 ≤ b → b ≤ c + 7 →
          (∃ t, get target (a * W + b) = some t ∧ 0 < t) ∧ ∃ u, get base (a * W + b) = some u ∧ 0 < u := by
  unfold points
  cases hi : image K target base nodata with
  | none => exact ⟨[], rfl, List.nodup_nil, by simp⟩
  | some img =>
    obtain ⟨il, ip, im⟩ := image_some target base nodata (W * H) ht hb img hi
    obtain ⟨img0, e0, l0⟩ := scaled_ok (K := K) img ip
    have l0' : (img0.length : Int) = W * H := by rw [l0]; exact il
    obtain ⟨img1, e1, l1, -⟩ := conv_ok img0 W H l0' f7 2 (by omega) (by omega) (by omega)
    have lz : ((List.replicate (W * H).toNat (0 : K)).length : Int) = W * H := by
      rw [List.length_replicate, Int.toNat_of_nonneg (mul_nonneg (by omega) (by omega))]
    obtain ⟨gx, ex, lx, -⟩ := gradient_ok img1 _ W H 1 l1 lz (Or.inl rfl) (by omega) (by omega)
    obtain ⟨gy, ey, ly, -⟩ := gradient_ok img1 _ W H W l1 lz (Or.inr rfl) (by omega) (by omega)
    obtain ⟨ab, eab, lab, -⟩ := conv_ok (pointwise (· * ·) gx gy) W H (pointwise_length _ _ _ _ lx ly) f2 7 (by omega) (by omega) (by omega)
    obtain ⟨a, ea, la, pa, -⟩ := conv_ok (pointwise (· * ·) gx gx) W H (pointwise_length _ _ _ _ lx lx) f2 7 (by omega) (by omega) (by omega)
    obtain ⟨b, eb, lb, pb, -⟩ := conv_ok (pointwise (· * ·) gy gy) W H (pointwise_length _ _ _ _ ly ly) f2 7 (by omega) (by omega) (by omega)
    have sq : ∀ g : List K, ∀ x ∈ pointwise (· * ·) g g, 0 ≤ x := by
      intro g x hx
      unfold pointwise at hx
      rw [List.zipWith_self] at hx
      obtain ⟨y, -, rfl⟩ := List.mem_map.1 hx
      exact mul_self_nonneg y
    have ha := pa (sq gx) hf
    have hbn := pb (sq gy) hf
    have lnum : ((pointwise (· - ·) (pointwise (· * ·) a b) (pointwise (· * ·) ab ab)).length : Int) = W * H :=
      pointwise_length _ _ _ _ (pointwise_length _ _ _ _ la lb) (pointwise_length _ _ _ _ lab lab)
    obtain ⟨s, es, ls⟩ := divide_ok (pointwise (· - ·) (pointwise (· * ·) a b) (pointwise (· * ·) ab ab))
      ((pointwise (· + ·) a b).map (· + 1 / 100)) (W * H) lnum
      (by rw [List.length_map]; exact pointwise_length _ _ _ _ la lb) (by
        intro x hx
        obtain ⟨y, hy, rfl⟩ := List.mem_map.1 hx
        unfold pointwise at hy
        rw [← List.map_uncurry_zip_eq_zipWith] at hy
        obtain ⟨z, hz, rfl⟩ := List.mem_map.1 hy
        have h1 := ha z.1 (List.of_mem_zip hz).1
        have h2 := hbn z.2 (List.of_mem_zip hz).2
        have : (0 : K) < Function.uncurry (fun x1 x2 => x1 + x2) z + 1 / 100 := by
          show (0 : K) < z.1 + z.2 + 1 / 100
          positivity
        exact this.ne')
    obtain ⟨g0, eg0, lg0, -⟩ := conv_ok s W H ls f2 7 (by omega) (by omega) (by omega)
    obtain ⟨g1, eg1, lg1, -⟩ := gradient_ok g0 s W H 1 lg0 ls (Or.inl rfl) (by omega) (by omega)
    obtain ⟨g2, eg2, lg2, -⟩ := gradient_ok g0 _ W H W lg0 lnum (Or.inr rfl) (by omega) (by omega)
    obtain ⟨pts, k, -, -, ep, np, hp⟩ := c293_points img g0 g1 g2 W H nodata (maskedMean g0 (mask target base)) minimum il lg0 lg1 lg2
    refine ⟨pts, ?_, np, ?_⟩
    · show (scaled img).bind _ = _
      norm_num at e1 eab ea eb eg0
      rw [e0, Option.bind_some, e1, Option.bind_some, ex, Option.bind_some, ey, Option.bind_some, eab, Option.bind_some, ea,
        Option.bind_some, eb, Option.bind_some, es, Option.bind_some, eg0, Option.bind_some, eg1, Option.bind_some, eg2,
        Option.bind_some, ep]
    · intro r c hrc
      obtain ⟨hr, hc, hw, -⟩ := (hp r c).1 hrc
      refine ⟨hr, hc, ?_⟩
      intro x y h1 h2 h3 h4
      obtain ⟨x0, x1⟩ := idx W H x y (by omega) (by omega)
      obtain ⟨v, -, ev⟩ := get_lt img (x * W + y) x0 (by omega)
      exact im _ v ev fun e => hw x y h1 h2 h3 h4 (by rw [ev, e])

/-- C293: without a pixel that has data in both images there are no points. -/
theorem c293_none (target base : List Int) (W H nodata : Int) (f7 f2 : Int → K) (w7 w2 : Int) (minimum : Nat)
    (h : ∀ n t u, get target n = some t → get base n = some u → t ≤ 0 ∨ u ≤ 0) :
    points target base W H nodata f7 f2 w7 w2 minimum = some [] := by
  have : image K target base nodata = none := by
    unfold image
    dsimp only
    rw [if_pos]
    rw [List.countP_eq_zero]
    intro b hb
    unfold mask at hb
    obtain ⟨v, hv, rfl⟩ := List.mem_map.1 hb
    obtain ⟨k, hk⟩ := List.mem_iff_getElem?.1 hv
    rw [List.getElem?_zip_eq_some] at hk
    have := h k v.1 v.2 (by unfold get; rw [if_pos (by omega)]; exact hk.1) (by unfold get; rw [if_pos (by omega)]; exact hk.2)
    simp only [decide_eq_true_eq]
    omega
  unfold points
  rw [this]

end Verif.Poi
