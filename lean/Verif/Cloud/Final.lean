import Verif.Cloud.Spec
import Verif.Buffer.Props
import Verif.Qai.Props
import Verif.Qai.Lemmas
import Mathlib.Tactic.Linarith
import Mathlib.Tactic.Ring
import Mathlib.Tactic.FieldSimp

/-!
# Final flags (C125) and the decision (C128)
-/

namespace Verif.Cloud

open Verif.Str (Out)
open Verif.Buffer (buffer writes)
open Verif.Buffer.Spec (px dist2)
open Verif.Qai (get_eq_value get_set get_lt)
open Verif.Qai.Spec (value states)
open Verif.Cloud.Spec

theorem buf_spec (nx ny r : Nat) (img : Int → Bool) (order : List Int) (hr : r ≤ 100000000)
    (ho : ∀ ws, writes img nx ny r = some (.ok ws) → order.Perm ws) :
    ∃ out, buffer img nx ny r order = .ok out ∧
      (∀ i j, i < ny → j < nx → px nx out i j = true → ∃ i' j', Buffer.Spec.Inside ny r i' ∧ Buffer.Spec.Inside nx r j' ∧ px nx img i' j' = true ∧
        2 * dist2 i j i' j' ≤ 2 * (r : Int) ^ 2 + r) ∧
      (∀ i j, Around nx ny r img i j → px nx out i j = true) := by
  by_cases h1 : 1 ≤ r
  · obtain ⟨ws, hw, hs⟩ := Buffer.buffer_spec nx ny r img h1 hr
    obtain ⟨out, o1, _, o3, o4⟩ := hs order (ho ws hw)
    refine ⟨out, o1, o3, ?_⟩
    rintro i j ⟨i', j', a, b, c, d⟩
    exact o4 i' j' i j a b c d
  · have h0 : r = 0 := by omega
    subst h0
    refine ⟨img, Buffer.c14_no_radius _ _ _ _ (by simp) _, ?_, ?_⟩
    · intro i j hi hj h
      exact ⟨i, j, ⟨by omega, by omega⟩, ⟨by omega, by omega⟩, h, by simp [dist2]⟩
    · rintro i j ⟨i', j', a, b, c, d⟩
      simp only [dist2] at d
      have e1 : ((i : Int) - i') ^ 2 ≥ 0 := sq_nonneg _
      have e2 : ((j : Int) - j') ^ 2 ≥ 0 := sq_nonneg _
      have f1 : (i : Int) - i' = 0 := by
        have : ((i : Int) - i') ^ 2 = 0 := by push_cast at d; omega
        exact pow_eq_zero_iff (by norm_num) |>.1 this
      have f2 : (j : Int) - j' = 0 := by
        have : ((j : Int) - j') ^ 2 = 0 := by push_cast at d; omega
        exact pow_eq_zero_iff (by norm_num) |>.1 this
      have g1 : i = i' := by omega
      have g2 : j = j' := by omega
      rw [g1, g2]; exact c

theorem near_of (nx ny r : Nat) (img : Int → Bool) (i j : Nat)
    (h : ∃ i' j', Buffer.Spec.Inside ny r i' ∧ Buffer.Spec.Inside nx r j' ∧ px nx img i' j' = true ∧ 2 * dist2 i j i' j' ≤ 2 * (r : Int) ^ 2 + r) :
    Near nx ny r img i j := by
  obtain ⟨i', j', a, b, c, d⟩ := h
  exact ⟨i', j', by have := a.2; omega, by have := b.2; omega, c, d⟩

theorem value_set (f g : Qai.Flag) (v : BitVec 16) (x : Nat) (hx : x < states f) : value g (Qai.set f v x) = if g = f then x else value g v := by
  rw [← get_eq_value, ← get_eq_value]
  have := get_set f g v x hx
  rw [this]

theorem isOff_iff (v : BitVec 16) : isOff v = true ↔ value .off v ≠ 0 := by simp [isOff, get_eq_value]

theorem isOff_false (v : BitVec 16) : isOff v = false ↔ value .off v = 0 := by simp [isOff, get_eq_value]

theorem confident_value (fcld : Int → Bool) (q : Quality) (p : Int) (f : Qai.Flag) :
    value f (confident fcld q p) = if f = .cld ∧ value .off (q p) = 0 ∧ fcld p = true then 2 else value f (q p) := by
  unfold confident
  by_cases ho : value .off (q p) = 0
  · rw [(isOff_false _).2 ho]
    by_cases hc : fcld p = true
    · simp only [hc, if_true, Bool.false_eq_true, if_false]
      rw [value_set _ _ _ _ (by decide)]
      simp [ho]
    · simp [hc]
  · rw [(isOff_iff _).2 ho]
    simp [ho]

theorem cirrus_iff (c : Int → Int) (z : Int → ℚ) (fcld : Int → Bool) (q : Quality) (p : Int) :
    cirrusMask (some c) z (confident fcld q) p = true ↔ Cirrus (q p) (c p) (z p) := by
  have h1 : value .off (confident fcld q p) = value .off (q p) := by rw [confident_value]; simp
  have h2 : value .snw (confident fcld q p) = value .snw (q p) := by rw [confident_value]; simp
  have h3 : (c p : ℚ) > cirrusThreshold (z p) ↔ (c p : ℚ) > 100 ∧ (c p : ℚ) > 70 + 70 * z p * z p := by
    unfold cirrusThreshold
    by_cases h : 70 + 70 * z p * z p < 100
    · rw [if_pos h]
      exact ⟨fun a => ⟨a, by linarith⟩, fun a => a.1⟩
    · rw [if_neg h]
      exact ⟨fun a => ⟨by linarith, a⟩, fun a => a.2⟩
  simp only [cirrusMask, isCirrus, Cirrus, Bool.and_eq_true, Bool.not_eq_true', isOff_false, h1, decide_eq_true_eq, decide_eq_false_iff_not,
    get_eq_value, h2, not_not, h3]
  constructor
  · rintro ⟨a, ⟨b, _⟩, d, e⟩
    exact ⟨a, b, d, e⟩
  · rintro ⟨a, b, d, e⟩
    exact ⟨a, ⟨b, by exact_mod_cast d⟩, d, e⟩

theorem finish_value (c i s : Bool) (v : BitVec 16) (f : Qai.Flag) (ho : value .off v = 0) :
    value f (finish c i s v) =
      if f = .shd ∧ s = true then 1
      else if f = .cld ∧ c = true ∧ value .cld v = 0 then 1
      else if f = .cld ∧ c = false ∧ i = true then 3 else value f v := by
  unfold finish
  rw [(isOff_false _).2 ho]
  simp only [Bool.false_eq_true, if_false, get_eq_value]
  have h3 : 3 < states .cld := by decide
  have h1 : 1 < states .cld := by decide
  have hs : 1 < states .shd := by decide
  cases c <;> cases i <;> cases s <;> by_cases hc : value .cld v = 0 <;> simp [value_set, h3, h1, hs, hc] <;> cases f <;> simp_all

theorem finish_off (c i s : Bool) (v : BitVec 16) (ho : value .off v ≠ 0) : finish c i s v = v := by
  unfold finish
  rw [(isOff_iff _).2 ho]
  simp

/-- The threads write the pixels of each buffer in any order. -/
def Orders (nx ny : Nat) (b : Buffers) : Prop :=
  ∀ (img : Int → Bool) (r : Nat) (ws : List Int), writes img nx ny r = some (.ok ws) → (b.order img r).Perm ws

/-- What `finalize` computes. -/
theorem finalize_spec (nx ny : Nat) (b : Buffers) (cirrus : Int → Int) (z : Int → ℚ) (fcld fshd : Int → Bool) (q : Quality) (ho : Orders nx ny b)
    (h1 : b.cloud ≤ 100000000) (h2 : b.cirrus ≤ 100000000) (h3 : b.shadow ≤ 100000000) (mask : Int → Bool) (hm : CirrusMask q cirrus z mask) :
    ∃ c i s : Int → Bool, finalize nx ny b (some cirrus) z fcld fshd q = .ok (fun p => finish (c p) (i p) (s p) (confident fcld q p)) ∧
      (∀ y x, y < ny → x < nx → px nx c y x = true → ∃ i' j', Buffer.Spec.Inside ny b.cloud i' ∧ Buffer.Spec.Inside nx b.cloud j' ∧
        px nx fcld i' j' = true ∧ 2 * dist2 y x i' j' ≤ 2 * (b.cloud : Int) ^ 2 + b.cloud) ∧
      (∀ y x, Around nx ny b.cloud fcld y x → px nx c y x = true) ∧
      (∀ y x, y < ny → x < nx → px nx i y x = true → Near nx ny b.cirrus mask y x) ∧ (∀ y x, Around nx ny b.cirrus mask y x → px nx i y x = true) ∧
      (∀ y x, y < ny → x < nx → px nx s y x = true → Near nx ny b.shadow fshd y x) ∧
      (∀ y x, Around nx ny b.shadow fshd y x → px nx s y x = true) := by
  have hmask : cirrusMask (some cirrus) z (confident fcld q) = mask := by
    funext p
    rw [Bool.eq_iff_iff, cirrus_iff]
    exact (hm p).symm
  obtain ⟨c, c1, c2, c3⟩ := buf_spec nx ny b.cloud fcld _ h1 (ho fcld b.cloud)
  obtain ⟨i, i1, i2, i3⟩ := buf_spec nx ny b.cirrus mask _ h2 (ho mask b.cirrus)
  obtain ⟨s, s1, s2, s3⟩ := buf_spec nx ny b.shadow fshd _ h3 (ho fshd b.shadow)
  refine ⟨c, i, s, ?_, c2, c3, fun y x hy hx h => near_of _ _ _ _ _ _ (i2 y x hy hx h), i3, fun y x hy hx h => near_of _ _ _ _ _ _ (s2 y x hy hx h), s3⟩
  unfold finalize
  simp only [hmask, c1, i1, s1, Out.bind]

/-- **C125** Quality bits of a valid pixel that had no cloud state before, in an image with a cirrus band, for any order of the writes of the threads: a detected cloud (not
closer to the edge of the image than the buffer distance) gets state 2; other pixels within the buffer distance of a detected cloud state 1; pixels that are not, but that
are within the buffer distance of cirrus, state 3; all other pixels state 0. Pixels within the buffer distance of a shadow get the shadow flag. All other flags stay
as they are. What is missing: clouds, cirrus and shadows close to the edge of the image. -/
theorem c125_flags_partial (nx ny : Nat) (b : Buffers) (cirrus : Int → Int) (z : Int → ℚ) (fcld fshd : Int → Bool) (q : Quality) (ho : Orders nx ny b)
    (h1 : b.cloud ≤ 100000000) (h2 : b.cirrus ≤ 100000000) (h3 : b.shadow ≤ 100000000) (mask : Int → Bool) (hm : CirrusMask q cirrus z mask) :
    ∃ out, finalize nx ny b (some cirrus) z fcld fshd q = .ok out ∧
      ∀ i j, i < ny → j < nx → value .off (q (nx * i + j)) = 0 → value .cld (q (nx * i + j)) = 0 →
        let v := out (nx * i + j)
        (px nx fcld i j = true → Buffer.Spec.Inside ny b.cloud i → Buffer.Spec.Inside nx b.cloud j → value .cld v = 2) ∧
        (px nx fcld i j = false → Around nx ny b.cloud fcld i j → value .cld v = 1) ∧
        (¬ Near nx ny b.cloud fcld i j → Around nx ny b.cirrus mask i j → value .cld v = 3) ∧
        (¬ Near nx ny b.cloud fcld i j → ¬ Near nx ny b.cirrus mask i j → value .cld v = 0) ∧
        (Around nx ny b.shadow fshd i j → value .shd v = 1) ∧
        (¬ Near nx ny b.shadow fshd i j → value .shd v = value .shd (q (nx * i + j))) ∧
        ∀ f, f ≠ .cld → f ≠ .shd → value f v = value f (q (nx * i + j)) := by
  obtain ⟨c, i, s, e, c1, c2, i1, i2, s1, s2⟩ := finalize_spec nx ny b cirrus z fcld fshd q ho h1 h2 h3 mask hm
  refine ⟨_, e, ?_⟩
  intro y x hy hx hoff hcld
  have ho1 : value .off (confident fcld q (nx * y + x)) = 0 := by rw [confident_value]; simpa using hoff
  have hne : ¬ Near nx ny b.cloud fcld y x → px nx c y x = false ∧ px nx fcld y x = false := by
    intro hn
    constructor
    · by_contra hc
      exact hn (near_of _ _ _ _ _ _ (c1 y x hy hx (by simpa using hc)))
    · by_contra hc
      refine hn ⟨y, x, hy, hx, by simpa using hc, ?_⟩
      simp only [dist2, sub_self]
      positivity
  simp only [px] at *
  refine ⟨?_, ?_, ?_, ?_, ?_, ?_, ?_⟩
  · intro hf hi hj
    have hc : c (nx * y + x) = true := c2 y x ⟨y, x, hi, hj, hf, by simp [dist2]⟩
    rw [finish_value _ _ _ _ _ ho1, confident_value]
    simp [hc, hf, hoff]
  · intro hf ha
    rw [finish_value _ _ _ _ _ ho1, confident_value]
    simp [c2 y x ha, hf, hcld]
  · intro hn ha
    rw [finish_value _ _ _ _ _ ho1, confident_value]
    simp [(hne hn).1, (hne hn).2, i2 y x ha, hcld]
  · intro hn hn2
    have hi : i (nx * y + x) = false := by
      by_contra hc
      exact hn2 (i1 y x hy hx (by simpa using hc))
    rw [finish_value _ _ _ _ _ ho1, confident_value]
    simp [(hne hn).1, (hne hn).2, hi, hcld]
  · intro ha
    rw [finish_value _ _ _ _ _ ho1]
    simp [s2 y x ha]
  · intro hn
    have hs : s (nx * y + x) = false := by
      by_contra hc
      exact hn (s1 y x hy hx (by simpa using hc))
    rw [finish_value _ _ _ _ _ ho1]
    simp [hs, confident_value]
  · intro f hf hs
    rw [finish_value _ _ _ _ _ ho1]
    simp [hf, hs, confident_value]

/-- **C125** Pixels without data are not changed. -/
theorem c125_off (nx ny : Nat) (b : Buffers) (cirrus : Int → Int) (z : Int → ℚ) (fcld fshd : Int → Bool) (q : Quality) (ho : Orders nx ny b)
    (h1 : b.cloud ≤ 100000000) (h2 : b.cirrus ≤ 100000000) (h3 : b.shadow ≤ 100000000) :
    ∃ out, finalize nx ny b (some cirrus) z fcld fshd q = .ok out ∧ ∀ p, value .off (q p) ≠ 0 → out p = q p := by
  classical
  obtain ⟨c, i, s, e, _⟩ := finalize_spec nx ny b cirrus z fcld fshd q ho h1 h2 h3 (fun p => decide (Cirrus (q p) (cirrus p) (z p))) (fun p => by simp)
  refine ⟨_, e, ?_⟩
  intro p hp
  have hq : confident fcld q p = q p := by
    unfold confident
    rw [(isOff_iff _).2 hp]
    simp
  rw [hq, finish_off _ _ _ _ hp]

/-- C125, violated: if all detected clouds are closer to the edge of the image than the buffer distance, then no pixel gets state 1 (there is no buffer around them), and
wherever there is cirrus, a detected cloud is declared cirrus (state 3) instead of opaque cloud (state 2). -/
theorem c125_edge_violated (nx ny : Nat) (b : Buffers) (cirrus : Int → Int) (z : Int → ℚ) (fcld fshd : Int → Bool) (q : Quality) (ho : Orders nx ny b)
    (h1 : b.cloud ≤ 100000000) (h2 : b.cirrus ≤ 100000000) (h3 : b.shadow ≤ 100000000) (mask : Int → Bool) (hm : CirrusMask q cirrus z mask)
    (hedge : ∀ i j, i < ny → j < nx → px nx fcld i j = true → ¬ (Buffer.Spec.Inside ny b.cloud i ∧ Buffer.Spec.Inside nx b.cloud j)) :
    ∃ out, finalize nx ny b (some cirrus) z fcld fshd q = .ok out ∧
      ∀ i j, i < ny → j < nx → value .off (q (nx * i + j)) = 0 → value .cld (q (nx * i + j)) = 0 →
        value .cld (out (nx * i + j)) ≠ 1 ∧ (Around nx ny b.cirrus mask i j → value .cld (out (nx * i + j)) = 3) := by
  obtain ⟨c, i, s, e, c1, c2, i1, i2, s1, s2⟩ := finalize_spec nx ny b cirrus z fcld fshd q ho h1 h2 h3 mask hm
  refine ⟨_, e, ?_⟩
  intro y x hy hx hoff hcld
  have ho1 : value .off (confident fcld q (nx * y + x)) = 0 := by rw [confident_value]; simpa using hoff
  have hc : c (nx * y + x) = false := by
    by_contra hc
    obtain ⟨i', j', a, b', d, _⟩ := c1 y x hy hx (by simpa [px] using hc)
    exact hedge i' j' (by have := a.2; omega) (by have := b'.2; omega) d ⟨a, b'⟩
  rw [finish_value _ _ _ _ _ ho1, confident_value]
  constructor
  · simp only [hc, hcld, hoff]
    simp only [reduceCtorEq, false_and, if_false, Bool.false_eq_true, and_false, true_and]
    split_ifs <;> omega
  · intro ha
    have := i2 y x ha
    simp only [px] at this
    simp [hc, this]

theorem counted_iff (v : BitVec 16) : counted v = true ↔ Covered v := by
  simp only [counted, Covered, Bool.and_eq_true, Bool.not_eq_true', isOff_false, Bool.or_eq_true, decide_eq_true_eq, get_eq_value]
  refine and_congr_right fun _ => or_congr ?_ Iff.rfl
  omega

/-- Number of the pixels that have a property. -/
theorem filter_le (n : Nat) (f g : Nat → Bool) (h : ∀ p < n, f p = true → g p = true) :
    ((List.range n).filter f).length ≤ ((List.range n).filter g).length := by
  induction n with
  | zero => simp
  | succ n ih =>
    have := ih fun p hp => h p (by omega)
    rw [List.range_succ, List.filter_append, List.filter_append, List.length_append, List.length_append]
    have : ([n].filter f).length ≤ ([n].filter g).length := by
      by_cases hf : f n = true
      · simp [hf, h n (by omega) hf]
      · simp [hf]
    omega

/-- **C125** The cover that is reported is the percentage of the valid pixels with cloud or shadow; it is between 0 and 100. `npix`: number of valid pixels. -/
theorem c125_cover (nc : Nat) (q : Quality) (npix : Nat) (hn : npix = ((List.range nc).filter fun p : Nat => decide (value .off (q p) = 0)).length) (hp : 0 < npix) :
    (∃ k : Nat, cover nc npix q = 100 * k / npix ∧
      k = ((Finset.range nc).filter fun p : Nat => Covered (q p)).card) ∧ 0 ≤ cover nc npix q ∧ cover nc npix q ≤ 100 := by
  have hpos : (0 : ℚ) < npix := by exact_mod_cast hp
  refine ⟨⟨_, rfl, ?_⟩, ?_, ?_⟩
  · rw [← List.toFinset_card_of_nodup (List.Nodup.filter _ List.nodup_range)]
    congr 1
    ext p
    simp [counted_iff]
  · unfold cover; positivity
  · unfold cover
    rw [div_le_iff₀ hpos]
    have : ((List.range nc).filter fun p : Nat => counted (q p)).length ≤ npix := by
      rw [hn]
      refine filter_le _ _ _ fun p _ h => ?_
      have := (counted_iff _).1 h
      simpa using this.1
    have : (((List.range nc).filter fun p : Nat => counted (q p)).length : ℚ) ≤ npix := by exact_mod_cast this
    linarith

/-- A pixel has data before `finalize` if and only if it has data afterwards. -/
theorem finalize_off (nx ny : Nat) (b : Buffers) (cirrus : Int → Int) (z : Int → ℚ) (fcld fshd : Int → Bool) (q : Quality) (ho : Orders nx ny b)
    (h1 : b.cloud ≤ 100000000) (h2 : b.cirrus ≤ 100000000) (h3 : b.shadow ≤ 100000000) :
    ∃ out, finalize nx ny b (some cirrus) z fcld fshd q = .ok out ∧ ∀ p, (value .off (out p) = 0 ↔ value .off (q p) = 0) := by
  classical
  obtain ⟨c, i, s, e, _⟩ := finalize_spec nx ny b cirrus z fcld fshd q ho h1 h2 h3 (fun p => decide (Cirrus (q p) (cirrus p) (z p))) (fun p => by simp)
  refine ⟨_, e, ?_⟩
  intro p
  by_cases hp : value .off (q p) = 0
  · have ho1 : value .off (confident fcld q p) = 0 := by rw [confident_value]; simpa using hp
    rw [finish_value _ _ _ _ _ ho1]
    simp [ho1, hp]
  · have ho1 : value .off (confident fcld q p) = value .off (q p) := by rw [confident_value]; simp
    rw [finish_off _ _ _ _ (by rw [ho1]; exact hp), ho1]

theorem filter_congr_length (n : Nat) (f g : Nat → Bool) (h : ∀ p, f p = g p) : ((List.range n).filter f).length = ((List.range n).filter g).length := by
  rw [show f = g from funext h]

/-- **C128** An image that is not skipped does not exceed the threshold: the share of the valid pixels with cloud or shadow in the final quality bits is at most the
allowed percentage. (`npix`: number of valid pixels, whatever the masks of the stages are.) -/
theorem c128_accepted (nx ny : Nat) (b : Buffers) (cirrus : Int → Int) (z : Int → ℚ) (maxcc : ℚ) (s : Stages) (q : Quality) (ho : Orders nx ny b)
    (h1 : b.cloud ≤ 100000000) (h2 : b.cirrus ≤ 100000000) (h3 : b.shadow ≤ 100000000)
    (hn : s.npix = ((List.range (nx * ny)).filter fun p : Nat => decide (value .off (q p) = 0)).length) (hp : 0 < s.npix) :
    ∃ out cc skip, detect nx ny b (some cirrus) z maxcc s q = .ok (out, cc, skip) ∧
      (skip = true ↔ cc > maxcc) ∧
      (skip = false → 100 * (((Finset.range (nx * ny)).filter fun p : Nat => Covered (out p)).card : ℚ) / s.npix ≤ maxcc) := by
  have key : ∀ fcld fshd, ∃ out, finalize nx ny b (some cirrus) z fcld fshd q = .ok out ∧ cover (nx * ny) s.npix out ≤ 100 ∧
      cover (nx * ny) s.npix out = 100 * (((Finset.range (nx * ny)).filter fun p : Nat => Covered (out p)).card : ℚ) / s.npix := by
    intro fcld fshd
    obtain ⟨out, e, hoff⟩ := finalize_off nx ny b cirrus z fcld fshd q ho h1 h2 h3
    obtain ⟨⟨k, c1, c2⟩, _, c3⟩ := c125_cover (nx * ny) out s.npix (by rw [hn]; exact filter_congr_length _ _ _ fun p => by simp [hoff]) hp
    exact ⟨out, e, c3, by rw [c1, c2]⟩
  unfold detect
  by_cases g1 : s.npix ≠ 0 ∧ 100 * (s.nclear : ℚ) / s.npix > 1 / 10
  · rw [if_pos g1]
    by_cases g2 : 100 * (s.ncloud : ℚ) / s.npix ≤ maxcc * (8 / 10)
    · rw [if_pos g2]
      obtain ⟨out, e, c1, c2⟩ := key s.cld (if s.ncloud > 0 then s.shd else fun _ => false)
      refine ⟨out, _, _, by rw [e]; rfl, by simp, ?_⟩
      intro hs
      rw [← c2]
      simpa using hs
    · rw [if_neg g2]
      obtain ⟨out, e, c1, c2⟩ := key s.cld fun _ => true
      refine ⟨out, _, _, by rw [e]; rfl, by simp, ?_⟩
      intro hs
      rw [← c2]
      have : (100 : ℚ) ≤ maxcc := by simpa using hs
      linarith
  · rw [if_neg g1]
    obtain ⟨out, e, c1, c2⟩ := key s.pcp fun _ => true
    refine ⟨out, _, _, by rw [e]; rfl, by simp, ?_⟩
    intro hs
    rw [← c2]
    have : (100 : ℚ) ≤ maxcc := by simpa using hs
    linarith

/-- **C128** If clouds cover at most 80 % of the allowed percentage of an image with more than 0.1 % clear pixels, it is skipped if and only if the share of
the valid pixels with cloud or shadow in the final quality bits exceeds the allowed percentage, and this share is what is reported. What is missing: more clouds. -/
theorem c128_exact_partial (nx ny : Nat) (b : Buffers) (cirrus : Int → Int) (z : Int → ℚ) (maxcc : ℚ) (s : Stages) (q : Quality) (ho : Orders nx ny b)
    (h1 : b.cloud ≤ 100000000) (h2 : b.cirrus ≤ 100000000) (h3 : b.shadow ≤ 100000000)
    (hn : s.npix = ((List.range (nx * ny)).filter fun p : Nat => decide (value .off (q p) = 0)).length) (hp : 0 < s.npix)
    (hclear : (s.nclear : ℚ) / s.npix > 1 / 1000) (hcloud : (s.ncloud : ℚ) / s.npix ≤ maxcc / 100 * (8 / 10)) :
    ∃ out cc skip, detect nx ny b (some cirrus) z maxcc s q = .ok (out, cc, skip) ∧
      finalize nx ny b (some cirrus) z s.cld (if s.ncloud > 0 then s.shd else fun _ => false) q = .ok out ∧
      cc = 100 * (((Finset.range (nx * ny)).filter fun p : Nat => Covered (out p)).card : ℚ) / s.npix ∧
      (skip = true ↔ 100 * (((Finset.range (nx * ny)).filter fun p : Nat => Covered (out p)).card : ℚ) / s.npix > maxcc) := by
  obtain ⟨out, e, hoff⟩ := finalize_off nx ny b cirrus z s.cld (if s.ncloud > 0 then s.shd else fun _ => false) q ho h1 h2 h3
  obtain ⟨⟨k, c1, c2⟩, _, c3⟩ := c125_cover (nx * ny) out s.npix (by rw [hn]; exact filter_congr_length _ _ _ fun p => by simp [hoff]) hp
  refine ⟨out, cover (nx * ny) s.npix out, decide (cover (nx * ny) s.npix out > maxcc), ?_, e, by rw [c1, c2], by rw [c1, c2]; simp⟩
  unfold detect
  have a1 : 100 * (s.nclear : ℚ) / s.npix > 1 / 10 := by rw [mul_div_assoc]; linarith
  have a2 : 100 * (s.ncloud : ℚ) / s.npix ≤ maxcc * (8 / 10) := by rw [mul_div_assoc]; linarith
  rw [if_pos ⟨by omega, a1⟩, if_pos a2, e]
  rfl

/-- C128, violated: an image is skipped and reported as 100 % covered as soon as clouds cover more than 80 % of the allowed percentage (any allowed percentage below 100), even if
clouds and shadows together cover less than the allowed percentage: the shadows are not looked for at all. -/
theorem c128_skip_violated (nx ny : Nat) (b : Buffers) (cirrus : Int → Int) (z : Int → ℚ) (maxcc : ℚ) (s : Stages) (q : Quality) (ho : Orders nx ny b)
    (h1 : b.cloud ≤ 100000000) (h2 : b.cirrus ≤ 100000000) (h3 : b.shadow ≤ 100000000) (hp : 0 < s.npix)
    (hclear : (s.nclear : ℚ) / s.npix > 1 / 1000) (hcloud : (s.ncloud : ℚ) / s.npix > maxcc / 100 * (8 / 10)) (hmax : maxcc < 100) :
    ∃ out, detect nx ny b (some cirrus) z maxcc s q = .ok (out, 100, true) ∧
      ∀ shd, detect nx ny b (some cirrus) z maxcc { s with shd := shd } q = .ok (out, 100, true) := by
  obtain ⟨out, e, hoff⟩ := finalize_off nx ny b cirrus z s.cld (fun _ => true) q ho h1 h2 h3
  have a1 : 100 * (s.nclear : ℚ) / s.npix > 1 / 10 := by rw [mul_div_assoc]; linarith
  have a2 : ¬ 100 * (s.ncloud : ℚ) / s.npix ≤ maxcc * (8 / 10) := by rw [mul_div_assoc]; linarith
  have : ∀ shd, detect nx ny b (some cirrus) z maxcc { s with shd := shd } q = .ok (out, 100, true) := by
    intro shd
    unfold detect
    dsimp only
    rw [if_pos ⟨by omega, a1⟩, if_neg a2, e]
    simp [Out.bind, hmax]
  exact ⟨out, this s.shd, this⟩

end Verif.Cloud
