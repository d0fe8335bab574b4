import Verif.Cloud.Spec
import Verif.Recon.Props
import Verif.Dist.Props
import Verif.Index.Lemmas
import Verif.Qai.Lemmas
import Mathlib.Data.List.Induction
import Mathlib.Data.Rat.Floor
import Mathlib.Tactic.Linarith
import Mathlib.Tactic.FieldSimp

/-!
# Depth of dark areas (C126), shadow matching (C130) and distance (C129)
-/

namespace Verif.Cloud

open Verif.Str (Out)
open Verif.Recon (Px Img Ret inside inside_iff mem_pixels reconstruct)
open Verif.Recon.Spec (Inside Border IsLevel)
open Verif.Queue (toShort)
open Verif.Qai (get_eq_value)
open Verif.Qai.Spec (value)

/-! ## Depth -/

theorem toShort_id {x : Int} (h1 : -32768 ≤ x) (h2 : x ≤ 32767) : toShort x = x := by
  unfold toShort
  rw [BitVec.toInt_ofInt]
  exact Int.bmod_eq_of_le_mul_two (by omega) (by omega)

theorem marker_one (b : Img × Img) : marker [b] = depth b := rfl

theorem marker_two (a b : Img × Img) : marker [a, b] = depth b := rfl

theorem combine_perm (a b : Img × Img) (ts : List (List (Img × Img))) (h : ts.Perm [[a], [b]]) (p : Px) :
    combine ts p = min (min (depth a p) (depth b p)) 32767 := by
  have h2 : ts = [[a], [b]] ∨ ts = [[b], [a]] := by
    obtain ⟨x, y, rfl⟩ : ∃ x y, ts = [x, y] := by
      have := h.length_eq
      match ts, this with
      | [x, y], _ => exact ⟨x, y, rfl⟩
    have hx := h.mem_iff.1 (show x ∈ [x, y] by simp)
    simp only [List.mem_cons, List.not_mem_nil, or_false] at hx
    rcases hx with rfl | rfl
    · left
      have := (List.perm_cons _).1 h
      rw [List.perm_singleton] at this
      rw [this]
    · right
      have h3 : [[b], y].Perm [[b], [a]] := h.trans (List.Perm.swap _ _ _)
      have := (List.perm_cons _).1 h3
      rw [List.perm_singleton] at this
      rw [this]
  rcases h2 with rfl | rfl
  · simp only [combine, List.foldl_cons, List.foldl_nil, marker_one]
    split_ifs <;> omega
  · simp only [combine, List.foldl_cons, List.foldl_nil, marker_one]
    split_ifs <;> omega

theorem foldl_max_le (mask : Img) (ps : List Px) (m : Int) (hm : m ≤ 32767) (h : ∀ p ∈ ps, mask p ≤ 32767) :
    ps.foldl (fun m p => if mask p > m then mask p else m) m ≤ 32767 := by
  induction ps generalizing m with
  | nil => simpa
  | cons p ps ih =>
    simp only [List.foldl_cons]
    have := h p (by simp)
    exact ih _ (by split_ifs <;> omega) fun r hr => h r (by simp [hr])

theorem level_le {nx ny : Nat} {mask : Img} (hb : ∀ p, Inside nx ny p → mask p ≤ 32767) {p : Px} (hp : Inside nx ny p) {v : Int} (hv : IsLevel nx ny mask p v) :
    v ≤ 32767 := by
  obtain ⟨i, j⟩ := p
  have hi : ((i.toNat : Nat) : Int) = i := by
    have := hp.1
    simp only at this
    omega
  have := Recon.reach_max (nx := nx) (ny := ny) (mask := mask) j i.toNat (by rw [hi]; exact hp)
  rw [hi] at this
  have h1 := hv.2 _ this
  have h2 : Recon.maxMask nx ny mask ≤ 32767 := foldl_max_le _ _ _ (by norm_num) fun q hq => hb q (mem_pixels.1 hq)
  omega

theorem level_ge {nx ny : Nat} {mask : Img} {p : Px} {v : Int} (hv : IsLevel nx ny mask p v) : mask p ≤ v := by
  have := hv.1
  cases this with
  | border _ _ h => exact h
  | step _ _ _ _ _ h => exact h

/-- **C126** The image whose dark areas are filled has the background value on the edge of the image, where there is no data and far from clouds; everywhere else it is the reflectance. -/
theorem c126_background (nx ny : Nat) (toa : Img) (off far : Px → Bool) (bck : Int) (p : Px) (hi : Inside nx ny p) :
    (Border nx ny p ∨ off p = true ∨ far p = true → background nx ny toa off far bck p = bck) ∧
    (¬ Border nx ny p → off p = false → far p = false → background nx ny toa off far bck p = toa p) := by
  unfold background
  constructor
  · intro h
    apply if_pos
    rcases h with ⟨_, h | h | h | h⟩ | h | h <;> simp [h]
  · intro hb ho hf
    apply if_neg
    rintro (h | h | h | h | h | h)
    · exact hb ⟨hi, Or.inl h⟩
    · exact hb ⟨hi, Or.inr (Or.inr (Or.inl h))⟩
    · exact hb ⟨hi, Or.inr (Or.inl h)⟩
    · exact hb ⟨hi, Or.inr (Or.inr (Or.inr h))⟩
    · simp [ho] at h
    · simp [hf] at h

/-- **C126** With more than one thread, whichever thread comes first: the value of a pixel is the smaller of the depths of the near infrared and the short-wave infrared image, and
the depth is the difference between the lowest level at which water reaches the pixel from the edge of the image and the value of the image. The images: reflectance (16 bit, not
negative), with the background value at the edge of the image, at pixels without data and at pixels too far away from clouds. What is missing: one thread. -/
theorem c126_depth_partial (nx ny : Nat) (hx : nx ≤ 32768) (hy : ny ≤ 32768) (nthread : Nat) (ht : nthread ≠ 1) (toa1 toa2 : Img) (off far : Px → Bool) (bck1 bck2 : Int)
    (h1 : 0 ≤ bck1 ∧ bck1 ≤ 32767) (h2 : 0 ≤ bck2 ∧ bck2 ≤ 32767)
    (hr : ∀ p, Inside nx ny p → off p = false → (0 ≤ toa1 p ∧ toa1 p ≤ 32767) ∧ 0 ≤ toa2 p ∧ toa2 p ≤ 32767)
    (mk1 mk2 M1 M2 : Img) (fuel : Nat) (e1 : reconstruct nx ny (background nx ny toa1 off far bck1) mk1 fuel = some (.ok M1))
    (e2 : reconstruct nx ny (background nx ny toa2 off far bck2) mk2 fuel = some (.ok M2)) (ts : List (List (Img × Img)))
    (hp : ts.Perm (schedule nthread (M1, background nx ny toa1 off far bck1) (M2, background nx ny toa2 off far bck2))) (p : Px) (hi : Inside nx ny p) :
    ∃ l1 l2, IsLevel nx ny (background nx ny toa1 off far bck1) p l1 ∧ IsLevel nx ny (background nx ny toa2 off far bck2) p l2 ∧
      combine ts p = min (l1 - background nx ny toa1 off far bck1 p) (l2 - background nx ny toa2 off far bck2 p) ∧ 0 ≤ combine ts p := by
  have i1 := Recon.c12_fill_level nx ny hx hy _ _ _ _ e1 p hi
  have i2 := Recon.c12_fill_level nx ny hx hy _ _ _ _ e2 p hi
  have b1 : ∀ q, Inside nx ny q → 0 ≤ background nx ny toa1 off far bck1 q ∧ background nx ny toa1 off far bck1 q ≤ 32767 := by
    intro q hq
    unfold background
    split_ifs with h
    · exact h1
    · push Not at h
      exact (hr q hq (by simpa using h.2.2.2.2.1)).1
  have b2 : ∀ q, Inside nx ny q → 0 ≤ background nx ny toa2 off far bck2 q ∧ background nx ny toa2 off far bck2 q ≤ 32767 := by
    intro q hq
    unfold background
    split_ifs with h
    · exact h2
    · push Not at h
      exact (hr q hq (by simpa using h.2.2.2.2.1)).2
  have u1 := level_le (fun q hq => (b1 q hq).2) hi i1
  have u2 := level_le (fun q hq => (b2 q hq).2) hi i2
  have v1 := level_ge i1
  have v2 := level_ge i2
  have w1 := b1 p hi
  have w2 := b2 p hi
  refine ⟨M1 p, M2 p, i1, i2, ?_⟩
  rw [schedule, if_neg ht] at hp
  rw [combine_perm _ _ _ hp p]
  simp only [depth]
  rw [toShort_id (by omega) (by omega), toShort_id (by omega) (by omega)]
  omega

/-- C126, violated: the result depends on the number of threads. With one thread, the value of a pixel is the depth of the short-wave infrared image, also where the near infrared
image has a smaller depth, which is the result with several threads. -/
theorem c126_threads_violated (nir sw1 : Img × Img) (n : Nat) (hn : n ≠ 1) (p : Px) (hd : nir.1 p - nir.2 p < sw1.1 p - sw1.2 p)
    (h0 : 0 ≤ nir.1 p - nir.2 p) (h1 : sw1.1 p - sw1.2 p ≤ 32767) :
    combine (schedule 1 nir sw1) p = sw1.1 p - sw1.2 p ∧ combine (schedule n nir sw1) p = nir.1 p - nir.2 p := by
  constructor
  · have hm : marker [nir, sw1] p = sw1.1 p - sw1.2 p := by
      rw [marker_two, depth, toShort_id (by omega) (by omega)]
    have e : combine (schedule 1 nir sw1) p = if marker [nir, sw1] p < 32767 then marker [nir, sw1] p else 32767 := rfl
    rw [e, hm]
    split_ifs <;> omega
  · rw [schedule, if_neg hn, combine_perm _ _ _ (List.Perm.refl _)]
    simp only [depth]
    rw [toShort_id (by omega) (by omega), toShort_id (by omega) (by omega)]
    omega

/-! ## Matching -/

/-- The shadow of the object falls on the pixel `p`, if the base of the object is at the height `base`. -/
def Hits (s : Scene) (extra : Px → ℚ) (object : List Px) (base : ℚ) (p : Px) : Prop :=
  ∃ c ∈ object, p = s.position (extra c + base) c ∧ Inside s.nx s.ny p

theorem mem_cast (s : Scene) (extra : Px → ℚ) (object : List Px) (base : ℚ) (p : Px) :
    p ∈ object.filterMap (castOne s.nx s.ny s.position extra base) ↔ Hits s extra object base p := by
  simp only [List.mem_filterMap, castOne, Hits]
  refine exists_congr fun c => and_congr_right fun _ => ?_
  constructor
  · intro h
    split_ifs at h with hi
    · simp only [Option.some.injEq] at h
      subst h
      exact ⟨rfl, inside_iff.1 hi⟩
  · rintro ⟨rfl, hi⟩
    rw [if_pos (inside_iff.2 hi)]

/-- **C130** The match at a base height: the sum, over the pixels of the object whose shadow falls on a pixel of the image that can be shadow, of the value of this pixel relative to 7.5 %, divided
by the number of the pixels of the object whose shadow falls on a pixel of the image outside of the object; zero if there is no such pixel. -/
theorem c130_match (s : Scene) (id : Nat) (extra : Px → ℚ) (object : List Px) (base : ℚ) (falls : Px → Px) (hf : ∀ c, falls c = s.position (extra c + base) c)
    (n : Nat) (hn : n = object.countP fun c => inside s.nx s.ny (falls c) && (s.label (falls c) != id)) :
    (n = 0 → matchAt s id extra object base = 0) ∧
    (matchAt s id extra object base * n =
      if n = 0 then 0 else (object.map fun c => if inside s.nx s.ny (falls c) = true ∧ s.dark (falls c) = true then s.value (falls c) / 750 else 0).sum) := by
  have e1 : ((object.filterMap (castOne s.nx s.ny s.position extra base)).filter fun p => decide (s.label p ≠ id)).length = n := by
    rw [hn]
    clear hn
    induction object with
    | nil => rfl
    | cons c l ih =>
      rw [List.countP_cons, ← ih]
      by_cases hi : inside s.nx s.ny (falls c) = true
      · have : castOne s.nx s.ny s.position extra base c = some (falls c) := by rw [castOne, ← hf c, if_pos hi]
        rw [List.filterMap_cons_some this, List.filter_cons]
        by_cases hl : s.label (falls c) = id
        · simp [hl]
        · simp [hl, hi]
      · have : castOne s.nx s.ny s.position extra base c = none := by rw [castOne, ← hf c, if_neg hi]
        rw [List.filterMap_cons_none this]
        simp [hi]
  have e2 : (((object.filterMap (castOne s.nx s.ny s.position extra base)).filter s.dark).map fun p => s.value p / 750).sum =
      (object.map fun c => if inside s.nx s.ny (falls c) = true ∧ s.dark (falls c) = true then s.value (falls c) / 750 else 0).sum := by
    clear hn e1
    induction object with
    | nil => rfl
    | cons c l ih =>
      rw [List.map_cons, List.sum_cons, ← ih]
      by_cases hi : inside s.nx s.ny (falls c) = true
      · have : castOne s.nx s.ny s.position extra base c = some (falls c) := by rw [castOne, ← hf c, if_pos hi]
        rw [List.filterMap_cons_some this, List.filter_cons]
        by_cases hl : s.dark (falls c) = true
        · simp [hl, hi]
        · simp [hl]
      · have : castOne s.nx s.ny s.position extra base c = none := by rw [castOne, ← hf c, if_neg hi]
        rw [List.filterMap_cons_none this]
        simp [hi]
  simp only [matchAt, e1, e2]
  by_cases h0 : n = 0
  · simp [h0]
  · refine ⟨fun h => absurd h h0, ?_⟩
    rw [if_neg h0, if_pos (Nat.pos_of_ne_zero h0)]
    have : (n : ℚ) ≠ 0 := by exact_mod_cast h0
    field_simp

/-- `base` is the first of the heights with the best match. -/
def Best (m : ℚ → ℚ) (bases : List ℚ) (base : ℚ) : Prop :=
  ∃ pre post, bases = pre ++ base :: post ∧ (∀ b ∈ pre, m b < m base) ∧ ∀ b ∈ post, m b ≤ m base

theorem fold_spec (s : Scene) (id : Nat) (extra : Px → ℚ) (object : List Px) (bases : List ℚ) :
    let m := matchAt s id extra object
    let ps := fun b => object.filterMap (castOne s.nx s.ny s.position extra b)
    let f := bases.foldl (tryBase s id extra object) ⟨0, [], []⟩
    (∀ p, p ∈ f.drawn ↔ ∃ b ∈ bases, m b ≥ 85 / 100 ∧ p ∈ ps b) ∧ 0 ≤ f.best ∧ (∀ b ∈ bases, m b ≤ f.best) ∧
      ((f.best = 0 ∧ f.bestAt = []) ∨ ∃ b, Best m bases b ∧ m b > 0 ∧ f.best = m b ∧ f.bestAt = ps b) := by
  intro m ps
  induction bases using List.reverseRecOn with
  | nil => simp
  | append_singleton l x ih =>
    obtain ⟨h1, h2, h3, h4⟩ := ih
    simp only [List.foldl_append, List.foldl_cons, List.foldl_nil]
    obtain ⟨f, hf⟩ : ∃ f, f = l.foldl (tryBase s id extra object) ⟨0, [], []⟩ := ⟨_, rfl⟩
    rw [← hf] at h1 h2 h3 h4 ⊢
    simp only [tryBase]
    change (∀ p, p ∈ (if m x ≥ 85 / 100 then f.drawn ++ ps x else f.drawn) ↔ _) ∧ 0 ≤ (if m x > f.best then m x else f.best) ∧
      (∀ b ∈ l ++ [x], m b ≤ (if m x > f.best then m x else f.best)) ∧
      (((if m x > f.best then m x else f.best) = 0 ∧ (if m x > f.best then ps x else f.bestAt) = []) ∨
        ∃ b, Best m (l ++ [x]) b ∧ m b > 0 ∧ (if m x > f.best then m x else f.best) = m b ∧ (if m x > f.best then ps x else f.bestAt) = ps b)
    refine ⟨?_, ?_, ?_, ?_⟩
    · intro p
      by_cases hx : m x ≥ 85 / 100
      · rw [if_pos hx, List.mem_append, h1 p]
        constructor
        · rintro (⟨b, hb, h⟩ | h)
          · exact ⟨b, by simp [hb], h⟩
          · exact ⟨x, by simp, hx, h⟩
        · rintro ⟨b, hb, h⟩
          rcases List.mem_append.1 hb with hb | hb
          · exact Or.inl ⟨b, hb, h⟩
          · rw [List.mem_singleton] at hb
            subst hb
            exact Or.inr h.2
      · rw [if_neg hx, h1 p]
        constructor
        · rintro ⟨b, hb, h⟩
          exact ⟨b, by simp [hb], h⟩
        · rintro ⟨b, hb, h⟩
          rcases List.mem_append.1 hb with hb | hb
          · exact ⟨b, hb, h⟩
          · rw [List.mem_singleton] at hb
            subst hb
            exact absurd h.1 hx
    · split_ifs <;> linarith
    · intro b hb
      rcases List.mem_append.1 hb with hb | hb
      · have := h3 b hb
        split_ifs <;> linarith
      · rw [List.mem_singleton] at hb
        subst hb
        split_ifs with h
        · exact le_rfl
        · linarith
    · by_cases hx : m x > f.best
      · right
        simp only [if_pos hx]
        exact ⟨x, ⟨l, [], rfl, fun b hb => lt_of_le_of_lt (h3 b hb) hx, by simp⟩, by linarith, rfl, rfl⟩
      · simp only [if_neg hx]
        rcases h4 with h4 | ⟨b, ⟨pre, post, e, g1, g2⟩, g3, g4, g5⟩
        · exact Or.inl h4
        · right
          refine ⟨b, ⟨pre, post ++ [x], by rw [e]; simp, g1, ?_⟩, g3, g4, g5⟩
          intro c hc
          rcases List.mem_append.1 hc with hc | hc
          · exact g2 c hc
          · rw [List.mem_singleton] at hc
            subst hc
            linarith

/-- **C130** The shadow of one object: a pixel is shadow if and only if the shadow of the object falls on it for a base height with a match of 85 % or more; or, if there is no such height, for
the first of the heights with the best match, if this match is not zero. -/
theorem c130_object (s : Scene) (id : Nat) (extra : Px → ℚ) (object : List Px) (bases : List ℚ) (p : Px) :
    p ∈ objectShadow s id extra object bases ↔
      (∃ b ∈ bases, matchAt s id extra object b ≥ 85 / 100 ∧ Hits s extra object b p) ∨
      ((∀ b ∈ bases, matchAt s id extra object b < 85 / 100) ∧
        ∃ b, Best (matchAt s id extra object) bases b ∧ matchAt s id extra object b > 0 ∧ Hits s extra object b p) := by
  obtain ⟨h1, h2, h3, h4⟩ := fold_spec s id extra object bases
  simp only at h1 h2 h3 h4
  simp only [objectShadow]
  obtain ⟨f, hf⟩ : ∃ f, f = bases.foldl (tryBase s id extra object) ⟨0, [], []⟩ := ⟨_, rfl⟩
  rw [← hf] at h1 h2 h3 h4 ⊢
  simp only [mem_cast] at h1
  have uniq : ∀ b b', Best (matchAt s id extra object) bases b → Best (matchAt s id extra object) bases b' → b = b' := by
    rintro b b' ⟨pre, post, e, g1, g2⟩ ⟨pre', post', e', g1', g2'⟩
    rw [e] at e'
    rcases List.append_eq_append_iff.1 e' with ⟨as, q1, q2⟩ | ⟨as, q1, q2⟩
    · cases as with
      | nil => simp at q2; exact q2.1
      | cons a as =>
        simp at q2
        obtain ⟨rfl, rfl⟩ := q2
        have := g1' b (by rw [q1]; simp)
        have := g2 b' (by simp)
        linarith
    · cases as with
      | nil => simp at q2; exact q2.1.symm
      | cons a as =>
        simp at q2
        obtain ⟨rfl, rfl⟩ := q2
        have := g1 b' (by rw [q1]; simp)
        have := g2' b (by simp)
        linarith
  rcases h4 with ⟨z1, z2⟩ | ⟨b, hb, hpos, e1, e2⟩
  · have hz : ∀ b ∈ bases, matchAt s id extra object b ≤ 0 := fun b hb => by have := h3 b hb; rw [z1] at this; exact this
    rw [if_neg (by rw [z1]; norm_num), h1]
    constructor
    · exact Or.inl
    · rintro (h | ⟨_, b, ⟨pre, post, e, _⟩, hp, _⟩)
      · exact h
      · have := hz b (by rw [e]; simp)
        linarith
  · by_cases hlow : f.best < 85 / 100
    · rw [if_pos ⟨hlow, by rw [e1]; exact hpos⟩, List.mem_append, h1, e2, mem_cast]
      have hall : ∀ b ∈ bases, matchAt s id extra object b < 85 / 100 := fun b hb => lt_of_le_of_lt (h3 b hb) hlow
      constructor
      · rintro (h | h)
        · exact Or.inl h
        · exact Or.inr ⟨hall, b, hb, hpos, h⟩
      · rintro (h | ⟨_, b', hb', _, h⟩)
        · exact Or.inl h
        · rw [uniq b b' hb hb']
          exact Or.inr h
    · rw [if_neg (fun h => hlow h.1), h1]
      constructor
      · exact Or.inl
      · rintro (h | ⟨hall, _⟩)
        · exact h
        · obtain ⟨pre, post, e, _⟩ := hb
          have := hall b (by rw [e]; simp)
          rw [← e1] at this
          exact absurd this hlow

theorem shadows_iff (s : Scene) (objects : List (Nat × (Px → ℚ) × List Px × List ℚ)) (p : Px) :
    shadows s objects p = true ↔ ∃ o ∈ objects, p ∈ objectShadow s o.1 o.2.1 o.2.2.1 o.2.2.2 := by
  have key : ∀ (l : List (Nat × (Px → ℚ) × List Px × List ℚ)) (m : Px → Bool),
      (l.foldl (fun m o p => m p || decide (p ∈ objectShadow s o.1 o.2.1 o.2.2.1 o.2.2.2)) m) p = true ↔
        m p = true ∨ ∃ o ∈ l, p ∈ objectShadow s o.1 o.2.1 o.2.2.1 o.2.2.2 := by
    intro l
    induction l with
    | nil => intro m; simp
    | cons o l ih =>
      intro m
      simp only [List.foldl_cons]
      rw [ih]
      simp [or_assoc]
  unfold shadows
  rw [key]
  simp

/-- **C130** The shadow mask is the union of the shadows of the objects and does not depend on the order in which the threads treat the objects; all shadows are in the image. -/
theorem c130_schedule (s : Scene) (objects objects' : List (Nat × (Px → ℚ) × List Px × List ℚ)) (h : objects.Perm objects') :
    shadows s objects = shadows s objects' ∧
      ∀ p, shadows s objects p = true → Inside s.nx s.ny p ∧ ∃ o ∈ objects, p ∈ objectShadow s o.1 o.2.1 o.2.2.1 o.2.2.2 := by
  constructor
  · funext p
    rw [Bool.eq_iff_iff, shadows_iff, shadows_iff]
    exact exists_congr fun o => and_congr_left fun _ => h.mem_iff
  · intro p hp
    obtain ⟨o, ho, hm⟩ := (shadows_iff _ _ _).1 hp
    refine ⟨?_, o, ho, hm⟩
    rcases (c130_object _ _ _ _ _ _).1 hm with ⟨_, _, _, _, _, _, hi⟩ | ⟨_, _, _, _, _, _, _, hi⟩ <;> exact hi

/-- **C130** With pixels of 30 m or more, all pixels of an object are used. What is missing: smaller pixels. -/
theorem c130_members_partial (nx ny : Nat) (res : ℚ) (hr : 30 ≤ res) (label : Px → Nat) (id : Nat) (p : Px) :
    p ∈ members nx ny res label id ↔ Inside nx ny p ∧ label p = id := by
  simp only [members, List.mem_filter, mem_pixels, sampled, Bool.and_eq_true, decide_eq_true_eq]
  have : ¬ res < 30 := by linarith
  simp [this]

/-- C130, violated: with pixels of 15 m or less, an object without a pixel whose row and column are multiples of the integer part of 30 m divided by the size of a pixel (for example a cloud
of any length in two neighbouring rows of a 10 m image) never gets a shadow, whatever the potential shadows are. -/
theorem c130_small_violated (s : Scene) (res : ℚ) (h0 : 0 < res) (hr : res ≤ 15) (label : Px → Nat) (id : Nat) (hrow : ∀ p, label p = id → p.1 % ⌊30 / res⌋ ≠ 0)
    (extra : Px → ℚ) (bases : List ℚ) : objectShadow s id extra (members s.nx s.ny res label id) bases = [] := by
  have hm : members s.nx s.ny res label id = [] := by
    rw [List.eq_nil_iff_forall_not_mem]
    intro p hp
    simp only [members, List.mem_filter, sampled, Bool.and_eq_true, decide_eq_true_eq] at hp
    have h30 : res < 30 := by linarith
    have := hrow p hp.2.1
    simp [h30, this] at hp
  rw [hm, List.eq_nil_iff_forall_not_mem]
  intro p hp
  rcases (c130_object _ _ _ _ _ _).1 hp with ⟨_, _, _, c, hc, _⟩ | ⟨_, _, _, _, c, hc, _⟩ <;> simp at hc

/-! ## Distance -/

theorem blocked_iff (v : BitVec 16) : blocked v = true ↔ value .cld v ≠ 0 ∨ value .shd v ≠ 0 ∨ value .snw v ≠ 0 := by
  simp only [blocked, Bool.or_eq_true, decide_eq_true_eq, get_eq_value, or_assoc]
  refine or_congr ?_ Iff.rfl
  omega

theorem isOff_iff' (v : BitVec 16) : isOff v = true ↔ value .off v ≠ 0 := by simp [isOff, get_eq_value]

/-- The value for a valid pixel is the distance in metres, rounded down, and limited to 32767. -/
theorem meters_spec (res : ℚ) (h0 : 0 < res) (nodata : Int) (v : BitVec 16) (d : Nat) :
    (value .off v ≠ 0 → meters res nodata v d = nodata) ∧
    (value .off v = 0 → 0 ≤ meters res nodata v d ∧ (meters res nodata v d : ℚ) ≤ d * res ∧ meters res nodata v d ≤ 32767 ∧
      (meters res nodata v d = 32767 ∨ (d : ℚ) * res < meters res nodata v d + 1)) := by
  constructor
  · intro h
    unfold meters
    rw [if_pos ((isOff_iff' v).2 h)]
  · intro h
    have hd : (0 : ℚ) ≤ d * res := by positivity
    unfold meters
    rw [if_neg (fun hc => (isOff_iff' v).1 hc h)]
    by_cases hs : (d : ℚ) * res < 32767
    · rw [if_pos hs]
      have he : Index.truncQ (d * res) = ⌊(d : ℚ) * res⌋ := by rw [Index.truncQ_eq, if_pos hd]
      rw [he]
      refine ⟨Int.floor_nonneg.2 hd, Int.floor_le _, ?_, Or.inr (Int.lt_floor_add_one _)⟩
      have : ⌊(d : ℚ) * res⌋ < 32767 := Int.floor_lt.2 (by push_cast; exact hs)
      omega
    · rw [if_neg hs]
      refine ⟨by norm_num, by push_cast; linarith, le_rfl, Or.inl rfl⟩

/-- **C129** Distance of the pixel in row `y` and column `x` to the next cloud, shadow or snow, in metres: pixels without data get the nodata value. For all other pixels, no cloud, shadow or
snow pixel is closer than the value; and one is closer than the value plus the size of a pixel plus one metre, unless the value is the largest possible one, 32767. -/
theorem c129_distance (nx ny : Nat) (res : ℚ) (h0 : 0 < res) (nodata : Int) (q : Nat → Nat → BitVec 16) (hnx : 1 ≤ nx)
    (hsize : (nx + 2 * ny) ^ 2 + nx ^ 2 ≤ 2147483647)
    (hsome : ∃ b a, b < ny ∧ a < nx ∧ (value .cld (q b a) ≠ 0 ∨ value .shd (q b a) ≠ 0 ∨ value .snw (q b a) ≠ 0)) (y : Nat) (hy : y < ny) :
    ∃ l, distance nx ny res nodata q y = .ok l ∧ l.length = nx ∧ ∀ x, x < nx → ∃ v : Int, l[x]? = some v ∧
      (value .off (q y x) ≠ 0 → v = nodata) ∧
      (value .off (q y x) = 0 → 0 ≤ v ∧ v ≤ 32767 ∧
        (∀ b a, b < ny → a < nx → (value .cld (q b a) ≠ 0 ∨ value .shd (q b a) ≠ 0 ∨ value .snw (q b a) ≠ 0) →
          (v : ℚ) ^ 2 ≤ ((((x : ℚ) - a) ^ 2 + ((y : ℚ) - b) ^ 2) * res ^ 2)) ∧
        (v = 32767 ∨ ∃ b a, b < ny ∧ a < nx ∧ (value .cld (q b a) ≠ 0 ∨ value .shd (q b a) ≠ 0 ∨ value .snw (q b a) ≠ 0) ∧
          (((x : ℚ) - a) ^ 2 + ((y : ℚ) - b) ^ 2) * res ^ 2 < ((v : ℚ) + 1 + res) ^ 2)) := by
  obtain ⟨b0, a0, hb0, ha0, hq0⟩ := hsome
  obtain ⟨r, e, hlen, hr⟩ := Dist.c13_distance nx ny (fun b a => blocked (q b a)) hnx hsize ⟨b0, a0, hb0, ha0, (blocked_iff _).2 hq0⟩ y hy
  refine ⟨(List.range nx).map fun x => meters res nodata (q y x) (r.getD x 0), ?_, ?_, ?_⟩
  · unfold distance
    rw [if_pos, e]
    · rfl
    · rw [List.any_eq_true]
      refine ⟨b0, by simpa using hb0, ?_⟩
      rw [List.any_eq_true]
      exact ⟨a0, by simpa using ha0, (blocked_iff _).2 hq0⟩
  · simp
  · intro x hx
    obtain ⟨d, hd, hmin, b1, a1, hb1, ha1, hq1, hlt⟩ := hr x hx
    obtain ⟨m1, m2⟩ := meters_spec res h0 nodata (q y x) d
    have hg : r.getD x 0 = d := by rw [List.getD_eq_getElem?_getD, hd]; rfl
    refine ⟨meters res nodata (q y x) d, ?_, m1, ?_⟩
    · simp [hx, hd]
    · intro hoff
      obtain ⟨n1, n2, n3, n4⟩ := m2 hoff
      refine ⟨n1, n3, ?_, ?_⟩
      · intro b a hb ha hq
        have := hmin b a hb ha ((blocked_iff _).2 hq)
        have h' : (d : ℚ) ^ 2 ≤ ((x : ℚ) - a) ^ 2 + ((y : ℚ) - b) ^ 2 := by
          have h2 : (((d : Int) ^ 2 : Int) : ℚ) ≤ ((Dist.Spec.dist2 y x b a : Int) : ℚ) := by exact_mod_cast this
          simpa [Dist.Spec.dist2] using h2
        have n1' : (0 : ℚ) ≤ (meters res nodata (q y x) d : ℚ) := by exact_mod_cast n1
        calc (meters res nodata (q y x) d : ℚ) ^ 2 ≤ (d * res) ^ 2 := pow_le_pow_left₀ n1' n2 2
          _ = (d : ℚ) ^ 2 * res ^ 2 := by ring
          _ ≤ _ := mul_le_mul_of_nonneg_right h' (by positivity)
      · rcases n4 with n4 | n4
        · exact Or.inl n4
        · right
          refine ⟨b1, a1, hb1, ha1, (blocked_iff _).1 hq1, ?_⟩
          have h' : ((x : ℚ) - a1) ^ 2 + ((y : ℚ) - b1) ^ 2 < ((d : ℚ) + 1) ^ 2 := by
            have h2 : ((Dist.Spec.dist2 y x b1 a1 : Int) : ℚ) < ((((d : Int) + 1) ^ 2 : Int) : ℚ) := by exact_mod_cast hlt
            simpa [Dist.Spec.dist2] using h2
          have hpos : (0 : ℚ) < res ^ 2 := by positivity
          have hdd : (0 : ℚ) ≤ (d : ℚ) * res + res := by positivity
          calc (((x : ℚ) - a1) ^ 2 + ((y : ℚ) - b1) ^ 2) * res ^ 2 < ((d : ℚ) + 1) ^ 2 * res ^ 2 := mul_lt_mul_of_pos_right h' hpos
            _ = (d * res + res) ^ 2 := by ring
            _ ≤ _ := pow_le_pow_left₀ hdd (by linarith) 2

/-- **C129** Without any cloud, shadow and snow, every valid pixel gets the number of rows plus columns, times the size of a pixel (or 32767, if it is smaller). -/
theorem c129_none (nx ny : Nat) (res : ℚ) (h0 : 0 < res) (nodata : Int) (q : Nat → Nat → BitVec 16) (hsize : ny + nx < 65536)
    (hnone : ∀ b a, b < ny → a < nx → value .cld (q b a) = 0 ∧ value .shd (q b a) = 0 ∧ value .snw (q b a) = 0) (y : Nat) :
    ∃ l, distance nx ny res nodata q y = .ok l ∧ l.length = nx ∧ ∀ x, x < nx → value .off (q y x) = 0 →
      ∃ v : Int, l[x]? = some v ∧ (v = ⌊((ny + nx : Nat) : ℚ) * res⌋ ∨ (v = 32767 ∧ ((ny + nx : Nat) : ℚ) * res ≥ 32767)) := by
  refine ⟨(List.range nx).map fun x => meters res nodata (q y x) (((List.range nx).map fun _ => (ny + nx) % 65536).getD x 0), ?_, by simp, ?_⟩
  · unfold distance
    rw [if_neg]
    · rfl
    · intro h
      rw [List.any_eq_true] at h
      obtain ⟨b, hb, h⟩ := h
      rw [List.any_eq_true] at h
      obtain ⟨a, ha, h⟩ := h
      have := hnone b a (by simpa using hb) (by simpa using ha)
      have h2 := (blocked_iff _).1 h
      omega
  · intro x hx hoff
    refine ⟨meters res nodata (q y x) (ny + nx), ?_, ?_⟩
    · have : (ny + nx) % 65536 = ny + nx := Nat.mod_eq_of_lt hsize
      simp [hx, this]
    · unfold meters
      rw [if_neg (fun hc => (isOff_iff' _).1 hc hoff)]
      have hd : (0 : ℚ) ≤ ((ny + nx : Nat) : ℚ) * res := by positivity
      split_ifs with h
      · left
        rw [Index.truncQ_eq, if_pos hd]
      · right
        exact ⟨rfl, by linarith⟩

end Verif.Cloud
