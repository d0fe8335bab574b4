import Verif.L1.Model
import Verif.L1.Spec
import Verif.Buffer.Props

/-!
# C116: void, saturated and rejected
-/

namespace Verif.L1

open Verif.L1.Spec
open Verif.Str (Out)
open Verif.Buffer.Spec (px Inside dist2)

theorem scan_off (dn : ℕ → ℕ) (temp cirrus : ℤ) (sat : ℕ) (bs : List ℕ) :
    (scan dn temp cirrus sat bs).off = true ↔
      ∃ (pre : List ℕ) (b : ℕ) (post : List ℕ), bs = pre ++ b :: post ∧ (b : ℤ) ≠ cirrus ∧ dn b = 0 ∧
        ∀ a ∈ pre, ¬ ((a : ℤ) ≠ cirrus ∧ dn a = 0) ∧ ¬ ((a : ℤ) ≠ temp ∧ sat ≤ dn a) := by
  induction bs with
  | nil => simp [scan]
  | cons b bs ih =>
    unfold scan
    by_cases h1 : (b : ℤ) ≠ cirrus ∧ dn b = 0
    · rw [if_pos h1]
      simp only [true_iff]
      exact ⟨[], b, bs, rfl, h1.1, h1.2, by simp⟩
    · rw [if_neg h1]
      by_cases h2 : (b : ℤ) ≠ temp ∧ dn b ≥ sat
      · rw [if_pos h2]
        constructor
        · intro h; cases h
        · rintro ⟨pre, b', post, e, x, y, z⟩
          cases pre with
          | nil => simp only [List.nil_append, List.cons.injEq] at e; rw [← e.1] at x y; exact absurd ⟨x, y⟩ h1
          | cons c pre =>
            simp only [List.cons_append, List.cons.injEq] at e
            have := (z c (by simp)).2
            rw [← e.1] at this
            exact absurd h2 this
      · rw [if_neg h2]
        show (scan dn temp cirrus sat bs).off = true ↔ _
        rw [ih]
        constructor
        · rintro ⟨pre, b', post, e, x, y, z⟩
          refine ⟨b :: pre, b', post, by rw [e]; rfl, x, y, ?_⟩
          intro a ha
          rcases List.mem_cons.1 ha with rfl | ha
          · exact ⟨h1, h2⟩
          · exact z a ha
        · rintro ⟨pre, b', post, e, x, y, z⟩
          cases pre with
          | nil => simp only [List.nil_append, List.cons.injEq] at e; rw [← e.1] at x y; exact absurd ⟨x, y⟩ h1
          | cons c pre =>
            simp only [List.cons_append, List.cons.injEq] at e
            exact ⟨pre, b', post, e.2, x, y, fun a ha => z a (by simp [ha])⟩

theorem scan_sat (dn : ℕ → ℕ) (temp cirrus : ℤ) (sat : ℕ) (bs : List ℕ) :
    (scan dn temp cirrus sat bs).sat = true ↔
      ∃ (pre : List ℕ) (b : ℕ) (post : List ℕ), bs = pre ++ b :: post ∧ ((b : ℤ) ≠ temp ∧ sat ≤ dn b) ∧ ¬ ((b : ℤ) ≠ cirrus ∧ dn b = 0) ∧
        ∀ a ∈ pre, ¬ ((a : ℤ) ≠ cirrus ∧ dn a = 0) ∧ ¬ ((a : ℤ) ≠ temp ∧ sat ≤ dn a) := by
  induction bs with
  | nil => simp [scan]
  | cons b bs ih =>
    unfold scan
    by_cases h1 : (b : ℤ) ≠ cirrus ∧ dn b = 0
    · rw [if_pos h1]
      constructor
      · intro h; cases h
      · rintro ⟨pre, b', post, e, x, y, z⟩
        cases pre with
        | nil => simp only [List.nil_append, List.cons.injEq] at e; rw [← e.1] at y; exact absurd h1 y
        | cons c pre =>
          simp only [List.cons_append, List.cons.injEq] at e
          have := (z c (by simp)).1
          rw [← e.1] at this
          exact absurd h1 this
    · rw [if_neg h1]
      by_cases h2 : (b : ℤ) ≠ temp ∧ dn b ≥ sat
      · rw [if_pos h2]
        simp only [true_iff]
        exact ⟨[], b, bs, rfl, h2, h1, by simp⟩
      · rw [if_neg h2]
        show (scan dn temp cirrus sat bs).sat = true ↔ _
        rw [ih]
        constructor
        · rintro ⟨pre, b', post, e, x, y, z⟩
          refine ⟨b :: pre, b', post, by rw [e]; rfl, x, y, ?_⟩
          intro a ha
          rcases List.mem_cons.1 ha with rfl | ha
          · exact ⟨h1, h2⟩
          · exact z a ha
        · rintro ⟨pre, b', post, e, x, y, z⟩
          cases pre with
          | nil => simp only [List.nil_append, List.cons.injEq] at e; rw [← e.1] at x; exact absurd x h2
          | cons c pre =>
            simp only [List.cons_append, List.cons.injEq] at e
            exact ⟨pre, b', post, e.2, x, y, fun a ha => z a (by simp [ha])⟩

theorem range_split {nb : ℕ} {pre post : List ℕ} {b : ℕ} (h : List.range nb = pre ++ b :: post) : b < nb ∧ ∀ a, a ∈ pre ↔ a < b := by
  have hb : b < nb := by rw [← List.mem_range, h]; simp
  have hp := (List.pairwise_lt_range (n := nb))
  rw [h] at hp
  obtain ⟨p1, p2, p3⟩ := List.pairwise_append.1 hp
  refine ⟨hb, fun a => ⟨fun ha => p3 a ha b (by simp), fun ha => ?_⟩⟩
  have : a ∈ pre ++ b :: post := by rw [← h, List.mem_range]; omega
  rcases List.mem_append.1 this with h' | h'
  · exact h'
  · rcases List.mem_cons.1 h' with rfl | h'
    · omega
    · have := List.rel_of_pairwise_cons p2 h'
      omega

theorem range_cut {nb b : ℕ} (h : b < nb) : ∃ post, List.range nb = List.range b ++ b :: post := by
  refine ⟨(List.range (nb - b - 1)).map (b + 1 + ·), ?_⟩
  have e : nb = b + (1 + (nb - b - 1)) := by omega
  conv_lhs => rw [e]
  rw [List.range_add, List.range_add]
  simp [Nat.add_assoc]

/-- A pixel is set off if and only if a band (other than the cirrus band) is 0 and no band before it (other than the temperature) is saturated. -/
theorem pixel_off (dn : Dn) (temp cirrus : ℤ) (sat nb p : ℕ) :
    (pixel dn temp cirrus sat nb p).off = true ↔
      ∃ b < nb, (b : ℤ) ≠ cirrus ∧ dn b p = 0 ∧ ∀ a < b, ¬ ((a : ℤ) ≠ temp ∧ sat ≤ dn a p) := by
  unfold pixel
  rw [scan_off]
  constructor
  · rintro ⟨pre, b, post, e, x, y, z⟩
    obtain ⟨q1, q2⟩ := range_split e
    exact ⟨b, q1, x, y, fun a ha => (z a ((q2 a).2 ha)).2⟩
  · intro h
    classical
    have hm := Nat.find_spec h
    have hmin := fun a => Nat.find_min h (m := a)
    generalize Nat.find h = b at hm hmin
    obtain ⟨x, y, z, w⟩ := hm
    obtain ⟨post, e⟩ := range_cut x
    refine ⟨_, b, post, e, y, z, ?_⟩
    intro a ha
    rw [List.mem_range] at ha
    refine ⟨fun hv => hmin a ha ⟨by omega, hv.1, hv.2, fun c hc => w c (by omega)⟩, w a ha⟩

/-- C116, partial: a pixel without saturated bands is masked if and only if it is void, that is if the digital number is 0 in any band other than the cirrus
band; and it is not flagged as saturated. Missing: void pixels of which another band is saturated. -/
theorem c116_void_partial (dn : Dn) (temp cirrus : ℤ) (sat nb p : ℕ) (hs : ¬ Saturated (fun b => dn b p) temp sat nb) :
    ((pixel dn temp cirrus sat nb p).off = true ↔ Void (fun b => dn b p) cirrus nb) ∧ (pixel dn temp cirrus sat nb p).sat = false := by
  constructor
  · rw [pixel_off]
    constructor
    · rintro ⟨b, x, y, z, _⟩; exact ⟨b, x, y, z⟩
    · rintro ⟨b, x, y, z⟩
      exact ⟨b, x, y, z, fun a ha hc => hs ⟨a, by omega, hc.1, hc.2⟩⟩
  · by_contra h
    rw [Bool.not_eq_false] at h
    obtain ⟨pre, b, post, e, x, _⟩ := (scan_sat _ _ _ _ _).1 h
    exact hs ⟨b, (range_split e).1, x.1, x.2⟩

/-- C116: a pixel that is not void is never masked, and it is flagged as saturated if and only if any band other than the temperature is saturated. -/
theorem c116_saturated (dn : Dn) (temp cirrus : ℤ) (sat nb p : ℕ) (hv : ¬ Void (fun b => dn b p) cirrus nb) :
    (pixel dn temp cirrus sat nb p).off = false ∧
    ((pixel dn temp cirrus sat nb p).sat = true ↔ Saturated (fun b => dn b p) temp sat nb) := by
  constructor
  · by_contra h
    rw [Bool.not_eq_false, pixel_off] at h
    obtain ⟨b, x, y, z, _⟩ := h
    exact hv ⟨b, x, y, z⟩
  · unfold pixel
    rw [scan_sat]
    constructor
    · rintro ⟨pre, b, post, e, x, _⟩
      exact ⟨b, (range_split e).1, x.1, x.2⟩
    · intro h
      classical
      have hm := Nat.find_spec h
      have hmin := fun a => Nat.find_min h (m := a)
      generalize Nat.find h = b at hm hmin
      obtain ⟨x, y⟩ := hm
      obtain ⟨post, e⟩ := range_cut x
      refine ⟨_, b, post, e, y, fun hc => hv ⟨b, x, hc.1, hc.2⟩, ?_⟩
      intro a ha
      rw [List.mem_range] at ha
      exact ⟨fun hc => hv ⟨a, by omega, hc.1, hc.2⟩, fun hc => hmin a ha ⟨by omega, hc⟩⟩

/-- C116, violated: the bands are looked at one after the other, and a saturated band ends the search. If a saturated band comes before the first void band,
the pixel is not masked, although it is void. -/
theorem c116_void_violated (dn : Dn) (temp cirrus : ℤ) (sat nb p a : ℕ) (ha : a < nb) (hs : (a : ℤ) ≠ temp ∧ sat ≤ dn a p)
    (hfirst : ∀ b, b ≤ a → (b : ℤ) ≠ cirrus → dn b p ≠ 0) (_hv : Void (fun b => dn b p) cirrus nb) :
    (pixel dn temp cirrus sat nb p).off = false ∧ (pixel dn temp cirrus sat nb p).sat = true := by
  constructor
  · by_contra h
    rw [Bool.not_eq_false, pixel_off] at h
    obtain ⟨b, x, y, z, w⟩ := h
    rcases Nat.lt_or_ge a b with h' | h'
    · exact w a h' hs
    · exact hfirst b h' y z
  · unfold pixel
    rw [scan_sat]
    classical
    have hex : ∃ c : ℕ, (c : ℤ) ≠ temp ∧ sat ≤ dn c p := ⟨a, hs⟩
    have hm := Nat.find_spec hex
    have hmin := fun c => Nat.find_min hex (m := c)
    have hle : Nat.find hex ≤ a := Nat.find_le hs
    generalize Nat.find hex = c at hm hmin hle
    obtain ⟨post, e⟩ := range_cut (show c < nb by omega)
    refine ⟨_, c, post, e, hm, fun hc => hfirst c hle hc.1 hc.2, ?_⟩
    intro d hd
    rw [List.mem_range] at hd
    exact ⟨fun hc => hfirst d (by omega) hc.1 hc.2, hmin d hd⟩

/-! ## Temperature -/

theorem scan_temp_zero (dn : ℕ → ℕ) (t : ℕ) (cirrus : ℤ) (hc : cirrus ≠ t) (sat : ℕ) (h0 : dn t = 0) (bs : List ℕ) :
    (scan dn t cirrus sat bs).tvalid = 0 := by
  induction bs with
  | nil => rfl
  | cons b bs ih =>
    unfold scan
    by_cases h1 : (b : ℤ) ≠ cirrus ∧ dn b = 0
    · rw [if_pos h1]
    · rw [if_neg h1]
      by_cases h2 : (b : ℤ) ≠ t ∧ dn b ≥ sat
      · rw [if_pos h2]
      · rw [if_neg h2]
        show _ + _ = 0
        rw [ih]
        by_cases h3 : (b : ℤ) = t
        · exact absurd ⟨by rw [h3]; exact hc.symm, by have : b = t := by exact_mod_cast h3
                                                      rw [this]; exact h0⟩ h1
        · rw [if_neg h3]

theorem scan_temp_pos (dn : ℕ → ℕ) (t : ℕ) (cirrus : ℤ) (sat : ℕ) (bs : List ℕ) (ht : t ∈ bs)
    (hv : ∀ b ∈ bs, ¬ ((b : ℤ) ≠ cirrus ∧ dn b = 0)) (hs : ∀ b ∈ bs, ¬ ((b : ℤ) ≠ t ∧ sat ≤ dn b)) :
    (scan dn t cirrus sat bs).tvalid ≠ 0 := by
  induction bs with
  | nil => cases ht
  | cons b bs ih =>
    unfold scan
    rw [if_neg (hv b (by simp)), if_neg (hs b (by simp))]
    show _ + _ ≠ 0
    by_cases h3 : (b : ℤ) = t
    · rw [if_pos h3]; omega
    · rw [if_neg h3]
      have : t ∈ bs := by
        rcases List.mem_cons.1 ht with h | h
        · exact absurd (by exact_mod_cast h.symm) h3
        · exact h
      have := ih this (fun c hc => hv c (by simp [hc])) (fun c hc => hs c (by simp [hc]))
      omega

theorem sum_zero_iff (l : List ℕ) : l.sum = 0 ↔ ∀ x ∈ l, x = 0 := by
  induction l with
  | nil => simp
  | cons a l ih => simp [ih]

/-- C116: an image of which the temperature is 0 at every pixel is rejected; images of sensors without a temperature band never are. -/
theorem c116_temperature (dn : Dn) (cirrus : ℤ) (sat nb nc : ℕ) :
    (∀ t : ℕ, cirrus ≠ t → (∀ p < nc, dn t p = 0) → rejected dn t cirrus sat nb nc = true) ∧
    (∀ temp : ℤ, temp < 0 → rejected dn temp cirrus sat nb nc = false) := by
  constructor
  · intro t hc h
    unfold rejected
    rw [Bool.and_eq_true, decide_eq_true_iff, decide_eq_true_iff, sum_zero_iff]
    refine ⟨by omega, ?_⟩
    intro x hx
    rw [List.mem_map] at hx
    obtain ⟨p, hp, rfl⟩ := hx
    exact scan_temp_zero _ t cirrus hc sat (h p (List.mem_range.1 hp)) _
  · intro temp ht
    unfold rejected
    rw [Bool.and_eq_false_iff]
    left
    rw [decide_eq_false_iff_not]
    omega

/-- C116, partial: an image with at least one pixel that is neither void nor saturated is not rejected. Missing: images in which all pixels with a
temperature are saturated in another band or void. -/
theorem c116_accepted_partial (dn : Dn) (t : ℕ) (cirrus : ℤ) (sat nb nc p : ℕ) (ht : t < nb) (hp : p < nc)
    (hv : ¬ Void (fun b => dn b p) cirrus nb) (hs : ¬ Saturated (fun b => dn b p) t sat nb) : rejected dn t cirrus sat nb nc = false := by
  unfold rejected
  rw [Bool.and_eq_false_iff]
  right
  rw [decide_eq_false_iff_not, sum_zero_iff]
  intro h
  refine scan_temp_pos (fun b => dn b p) t cirrus sat (List.range nb) (List.mem_range.2 ht) ?_ ?_
    (h _ (List.mem_map.2 ⟨p, List.mem_range.2 hp, rfl⟩))
  · intro b hb hc; exact hv ⟨b, List.mem_range.1 hb, hc.1, hc.2⟩
  · intro b hb hc; exact hs ⟨b, List.mem_range.1 hb, hc.1, hc.2⟩

theorem scan_before_temp (dn : ℕ → ℕ) (t : ℕ) (cirrus : ℤ) (sat a : ℕ) (ha : (a : ℤ) ≠ t ∧ sat ≤ dn a) :
    ∀ pre post, t ∉ pre → (scan dn t cirrus sat (pre ++ a :: post)).tvalid = 0 := by
  intro pre post hp
  induction pre with
  | nil =>
    show (scan dn t cirrus sat (a :: post)).tvalid = 0
    unfold scan
    by_cases h1 : (a : ℤ) ≠ cirrus ∧ dn a = 0
    · rw [if_pos h1]
    · rw [if_neg h1, if_pos ha]
  | cons b pre ih =>
    show (scan dn t cirrus sat (b :: (pre ++ a :: post))).tvalid = 0
    unfold scan
    by_cases h1 : (b : ℤ) ≠ cirrus ∧ dn b = 0
    · rw [if_pos h1]
    · rw [if_neg h1]
      by_cases h2 : (b : ℤ) ≠ t ∧ dn b ≥ sat
      · rw [if_pos h2]
      · rw [if_neg h2]
        show _ + _ = 0
        rw [ih (fun h => hp (by simp [h]))]
        rw [if_neg (fun h => hp (by have : b = t := by exact_mod_cast h
                                    simp [this]))]

/-- C116, violated: an image in which every pixel is saturated in a band before the temperature (for instance a scene that is covered by bright clouds) is rejected as
having a "zero-filled temperature", whatever the temperature is. -/
theorem c116_accepted_violated (dn : Dn) (t : ℕ) (cirrus : ℤ) (sat nb nc : ℕ) (ht : t < nb)
    (hs : ∀ p < nc, ∃ a < t, sat ≤ dn a p) : rejected dn t cirrus sat nb nc = true := by
  unfold rejected
  rw [Bool.and_eq_true, decide_eq_true_iff, decide_eq_true_iff, sum_zero_iff]
  refine ⟨by omega, ?_⟩
  intro x hx
  rw [List.mem_map] at hx
  obtain ⟨p, hp, rfl⟩ := hx
  obtain ⟨a, ha, hd⟩ := hs p (List.mem_range.1 hp)
  obtain ⟨post, e⟩ := range_cut (show a < nb by omega)
  unfold pixel
  rw [e]
  refine scan_before_temp _ t cirrus sat a ⟨by omega, hd⟩ _ _ ?_
  rw [List.mem_range]
  omega

/-! ## The buffer of one pixel -/

theorem px_off (dn : Dn) (temp cirrus : Int) (sat nb nx i j : Nat) :
    px nx (fun p : Int => (pixel dn temp cirrus sat nb p.toNat).off) i j = (pixel dn temp cirrus sat nb (nx * i + j)).off := by
  unfold px
  have : ((nx : Int) * i + j).toNat = nx * i + j := by
    have : (nx : Int) * i + j = ((nx * i + j : Nat) : Int) := by push_cast; ring
    rw [this, Int.toNat_natCast]
  show (pixel dn temp cirrus sat nb ((nx : Int) * i + j).toNat).off = _
  rw [this]

/-- C116, partial: without the buffer, exactly the pixels that are off above are masked. With the buffer, whatever the order in which the threads write, the result is
defined, it masks a pixel only if this pixel or one of its four neighbours is off, and it masks every pixel that is off, or has a neighbour that is off,
if this (neighbouring) pixel is not at the edge of the image. -/
theorem c116_buffer_partial (dn : Dn) (temp cirrus : Int) (sat nb nx ny : Nat) :
    (∀ order, ∃ out, offMap dn temp cirrus sat nb nx ny false order = .ok out ∧
      ∀ i j, px nx out i j = (pixel dn temp cirrus sat nb (nx * i + j)).off) ∧
    ∃ ws, offWrites dn temp cirrus sat nb nx ny = some (.ok ws) ∧ ∀ order, order.Perm ws →
      ∃ out, offMap dn temp cirrus sat nb nx ny true order = .ok out ∧
        (∀ i j, i < ny → j < nx → px nx out i j = true →
          ∃ i' j', i' < ny ∧ j' < nx ∧ (pixel dn temp cirrus sat nb (nx * i' + j')).off = true ∧ dist2 i j i' j' ≤ 1) ∧
        (∀ i' j' i j, 1 ≤ i' ∧ i' + 1 < ny → 1 ≤ j' ∧ j' + 1 < nx → (pixel dn temp cirrus sat nb (nx * i' + j')).off = true →
          dist2 i j i' j' ≤ 1 → px nx out i j = true) := by
  constructor
  · intro order
    exact ⟨_, rfl, fun i j => px_off dn temp cirrus sat nb nx i j⟩
  · obtain ⟨ws, h1, h2⟩ := Buffer.buffer_spec nx ny 1 (fun p : Int => (pixel dn temp cirrus sat nb p.toNat).off) (by norm_num) (by norm_num)
    refine ⟨ws, h1, ?_⟩
    intro order ho
    obtain ⟨out, o1, _, o3, o4⟩ := h2 order ho
    refine ⟨out, o1, ?_, ?_⟩
    · intro i j hi hj ht
      obtain ⟨i', j', a, b, c, d⟩ := o3 i j hi hj ht
      rw [px_off] at c
      refine ⟨i', j', by have := a.2; omega, by have := b.2; omega, c, ?_⟩
      norm_num at d
      omega
    · intro i' j' i j a b c d
      exact o4 i' j' i j a b (by rw [px_off]; exact c) (by norm_num; exact d)

/-- C116, violated: with the buffer, pixels at the edge of the image are never masked for being void themselves: if all void pixels are at the edge,
no pixel at all is masked. -/
theorem c116_border_violated (dn : Dn) (temp cirrus : Int) (sat nb nx ny : Nat) (ws : List Int)
    (hw : offWrites dn temp cirrus sat nb nx ny = some (.ok ws)) (order : List Int) (ho : order.Perm ws) (out : Int → Bool)
    (hb : offMap dn temp cirrus sat nb nx ny true order = .ok out)
    (hedge : ∀ i j, i < ny → j < nx → (pixel dn temp cirrus sat nb (nx * i + j)).off = true →
      i = 0 ∨ i + 1 = ny ∨ j = 0 ∨ j + 1 = nx) :
    ∀ i j, i < ny → j < nx → px nx out i j = false := by
  refine Buffer.c14_border_violated nx ny 1 _ (by norm_num) (by norm_num) ws hw order ho out hb ?_
  intro i j hi hj ht
  rw [px_off] at ht
  have := hedge i j hi hj ht
  rintro ⟨⟨a, b⟩, ⟨c, d⟩⟩
  omega

end Verif.L1
