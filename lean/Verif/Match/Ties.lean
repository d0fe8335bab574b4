import Verif.Match.Props

/-!
# Properties C272 to C275: tie points
-/

namespace Verif.Match

open Verif.Index (truncQ truncQ_eq)

/-! ## Specification -/

/-- The pyramid below a layer of `nx` x `ny` pixels: every layer is larger by its scale, at least 2,
and matches may move by at most 0.4 pixels on it. -/
def Spec.Pyramid : Nat → Nat → List Layer → Prop
  | _, _, [] => True
  | nx, ny, L :: Ls =>
    2 ≤ L.scale ∧ L.target.nx / L.scale = nx ∧ L.target.ny / L.scale = ny ∧
    L.base.nx = L.target.nx ∧ L.base.ny = L.target.ny ∧ 0 ≤ L.limit ∧ L.limit ≤ 4 / 10 ∧
    Spec.Pyramid L.target.nx L.target.ny Ls

/-- `(s', cr')` is reached from `(s, cr)` by iterations each of which increases the similarity. -/
inductive Spec.Climb {S : Type} (next : S → Next S) : S → Int → S → Int → Prop where
  | stay (s : S) (cr : Int) : Spec.Climb next s cr s cr
  | up {s s1 s2 : S} {cr cr1 cr2 : Int} (h : next s = .moved s1 cr1) (hi : cr < cr1)
      (c : Spec.Climb next s1 cr1 s2 cr2) : Spec.Climb next s cr s2 cr2

/-! ## Lemmas -/

theorem tr_nonneg {x : ℚ} (h : 0 ≤ x) : tr x = ⌊x + 1 / 10000000000⌋ := by
  unfold tr
  rw [truncQ_eq, if_pos (by linarith)]

theorem tr_inside {x : ℚ} {n : Nat} (h : 0 ≤ x) (h2 : x + 1 < n) : 0 ≤ tr x ∧ tr x < n := by
  rw [tr_nonneg h]
  constructor
  · rw [Int.floor_nonneg]; linarith
  · rw [Int.floor_lt]
    push_cast
    linarith

theorem tr_int {z : Int} : (0 ≤ z → tr z = z) ∧ (z < -1 → tr z < 0) := by
  constructor
  · intro h
    rw [tr_nonneg (by exact_mod_cast h), Int.floor_eq_iff]
    constructor <;> linarith
  · intro h
    have hq : (z : ℚ) ≤ -2 := by exact_mod_cast (show z ≤ -2 by omega)
    unfold tr
    rw [truncQ_eq, if_neg (by linarith)]
    have : ⌈(z : ℚ) + 1 / 10000000000⌉ ≤ -1 := by
      rw [Int.ceil_le]; push_cast; linarith
    omega

/-- A patch that lies in the image. -/
theorem patch_bounds {nx ny : Nat} {x y : Int} {hw : Nat} (h : patchOk nx ny x y hw = true) :
    -1 ≤ x - hw ∧ x + hw + 1 < nx ∧ -1 ≤ y - hw ∧ y + hw + 1 < ny := by
  unfold patchOk at h
  rw [List.all_eq_true] at h
  have key : ∀ a b : Int, |a| ≤ hw → |b| ≤ hw → 0 ≤ tr ((x + a : Int) : ℚ) ∧ tr ((x + a : Int) : ℚ) < (nx : Int) - 1 ∧
      0 ≤ tr ((y + b : Int) : ℚ) ∧ tr ((y + b : Int) : ℚ) < (ny : Int) - 1 := by
    intro a b ha hb
    have := h (a, b) ((mem_window hw (a, b)).2 ⟨ha, hb⟩)
    simp only [Bool.not_eq_true', Bool.or_eq_false_iff, decide_eq_false_iff_not, not_lt, ge_iff_le,
      not_le] at this
    obtain ⟨⟨⟨h1, h2⟩, h3⟩, h4⟩ := this
    exact ⟨h1, h2, h3, h4⟩
  have k1 := key (-hw) (-hw) (by simp) (by simp)
  have k2 := key hw hw (by simp) (by simp)
  have low : ∀ z : Int, 0 ≤ tr (z : ℚ) → -1 ≤ z := by
    intro z hz
    by_contra hc
    have := tr_int.2 (show z < -1 by omega)
    omega
  have high : ∀ (z : Int) (n : Nat), tr (z : ℚ) < (n : Int) - 1 → 0 ≤ tr (z : ℚ) → z + 1 < n := by
    intro z n hz h0
    by_cases hn : 0 ≤ z
    · rw [tr_int.1 hn] at hz; omega
    · omega
  refine ⟨?_, high _ _ k2.2.1 k2.1, ?_, high _ _ k2.2.2.2 k2.2.2.1⟩
  · have := low _ k1.1; omega
  · have := low _ k1.2.2.1; omega

theorem grow_eq (nx ny : Nat) (fit : Fit) (inc maxH : Nat) (x2 y2 : Int) (x1 y1 : ℚ) (k w : Nat) :
    ∃ ws, w ≤ ws ∧ grow nx ny fit inc maxH x2 y2 x1 y1 k w = lsm nx ny fit ws x2 y2 x1 y1 := by
  induction k generalizing w with
  | zero => exact ⟨w, le_refl _, rfl⟩
  | succ k ih =>
    rw [grow]
    split
    · obtain ⟨ws, h1, h2⟩ := ih (w + inc)
      exact ⟨ws, by omega, h2⟩
    · exact ⟨w, le_refl _, rfl⟩

/-- A match that moved was found by the fit, with both patches in the image. -/
theorem grow_moved {nx ny : Nat} {fit : Fit} {inc maxH : Nat} {x2 y2 : Int} {x1 y1 : ℚ} {k w : Nat}
    (h : still x1 y1 (grow nx ny fit inc maxH x2 y2 x1 y1 k w) = false) :
    ∃ ws, w ≤ ws ∧ grow nx ny fit inc maxH x2 y2 x1 y1 k w = fit ws x2 y2 x1 y1 ∧
      patchOk nx ny x2 y2 (ws / 2) = true ∧ patchOk nx ny (tr x1) (tr y1) ((ws + 2) / 2) = true := by
  obtain ⟨ws, hw, e⟩ := grow_eq nx ny fit inc maxH x2 y2 x1 y1 k w
  rw [e] at h
  refine ⟨ws, hw, ?_⟩
  rw [e]
  unfold lsm at h ⊢
  by_cases h1 : patchOk nx ny x2 y2 (ws / 2) = true
  · by_cases h2 : patchOk nx ny (tr x1) (tr y1) ((ws + 2) / 2) = true
    · rw [h1, h2]
      exact ⟨rfl, rfl, rfl⟩
    · rw [Bool.not_eq_true] at h2
      rw [h1, h2] at h
      simp only [Bool.not_true, Bool.false_eq_true, if_false, Bool.not_false, if_true] at h
      simp [still] at h
  · rw [Bool.not_eq_true] at h1
    rw [h1] at h
    simp only [Bool.not_false, if_true] at h
    simp [still] at h

/-- The best of the nine positions. -/
theorem best_eq (nx ny h : Nat) (cor : Int → Int → ℚ) (x2 y2 : Int) (old : Int × Int) :
    ((best nx ny h cor x2 y2 old).1 = old ∧
      ∀ a b : Int, |a| ≤ 1 → |b| ≤ 1 → fits nx ny (x2 + a) (y2 + b) h = true → cor (x2 + a) (y2 + b) ≤ 0) ∨
    (∃ a b : Int, |a| ≤ 1 ∧ |b| ≤ 1 ∧ (best nx ny h cor x2 y2 old).1 = (x2 + a, y2 + b) ∧
      fits nx ny (x2 + a) (y2 + b) h = true ∧ 0 < cor (x2 + a) (y2 + b)) := by
  have gen : ∀ (l : List (Int × Int)) (st : (Int × Int) × ℚ), (∀ d ∈ l, |d.1| ≤ 1 ∧ |d.2| ≤ 1) → 0 ≤ st.2 →
      ((l.foldl (fun st d => if fits nx ny (x2 + d.1) (y2 + d.2) h && cor (x2 + d.1) (y2 + d.2) > st.2 then
        ((x2 + d.1, y2 + d.2), cor (x2 + d.1) (y2 + d.2)) else st) st).1 = st.1 ∧
        ∀ d ∈ l, fits nx ny (x2 + d.1) (y2 + d.2) h = true → cor (x2 + d.1) (y2 + d.2) ≤ st.2) ∨
      (∃ a b : Int, |a| ≤ 1 ∧ |b| ≤ 1 ∧
        (l.foldl (fun st d => if fits nx ny (x2 + d.1) (y2 + d.2) h && cor (x2 + d.1) (y2 + d.2) > st.2 then
          ((x2 + d.1, y2 + d.2), cor (x2 + d.1) (y2 + d.2)) else st) st).1 = (x2 + a, y2 + b) ∧
        fits nx ny (x2 + a) (y2 + b) h = true ∧ 0 < cor (x2 + a) (y2 + b)) := by
    intro l
    induction l with
    | nil => intro st _ _; exact Or.inl ⟨rfl, by simp⟩
    | cons d l ih =>
      intro st hd h0
      rw [List.foldl_cons]
      by_cases hc : fits nx ny (x2 + d.1) (y2 + d.2) h = true ∧ cor (x2 + d.1) (y2 + d.2) > st.2
      · rw [if_pos (by simpa using hc)]
        right
        have hpos : 0 < cor (x2 + d.1) (y2 + d.2) := lt_of_le_of_lt h0 hc.2
        rcases ih ((x2 + d.1, y2 + d.2), cor (x2 + d.1) (y2 + d.2))
          (fun e he => hd e (List.mem_cons_of_mem _ he)) hpos.le with ⟨h1, _⟩ | h1
        · exact ⟨d.1, d.2, (hd d List.mem_cons_self).1, (hd d List.mem_cons_self).2, h1, hc.1, hpos⟩
        · exact h1
      · rw [if_neg (by simpa using hc)]
        rcases ih st (fun e he => hd e (List.mem_cons_of_mem _ he)) h0 with ⟨h1, h2⟩ | h1
        · left
          refine ⟨h1, fun e he hf => ?_⟩
          rcases List.mem_cons.1 he with rfl | he
          · by_contra hn
            exact hc ⟨hf, not_le.1 hn⟩
          · exact h2 e he hf
        · exact Or.inr h1
  have hw : ∀ d ∈ window 1, |d.1| ≤ 1 ∧ |d.2| ≤ 1 := fun d hd => by
    have := (mem_window 1 d).1 hd
    simpa using this
  rcases gen (window 1) (old, 0) hw (le_refl _) with ⟨h1, h2⟩ | h1
  · left
    exact ⟨h1, fun a b ha hb hf => h2 (a, b) ((mem_window 1 (a, b)).2 ⟨by simpa using ha, by simpa using hb⟩) hf⟩
  · exact Or.inr h1

theorem fits_iff (nx ny : Nat) (x y : Int) (h : Nat) :
    fits nx ny x y h = true ↔ (h : Int) ≤ x ∧ x + h + 1 ≤ nx ∧ (h : Int) ≤ y ∧ y + h + 1 ≤ ny := by
  unfold fits
  simp only [Bool.not_eq_true', Bool.or_eq_false_iff, decide_eq_false_iff_not]
  omega

/-- What is known about the carried position: none yet, or a position with a window in the image. -/
def Carried (nx ny : Nat) (q : Int × Int) : Prop := q = (0, 0) ∨ fits nx ny q.1 q.2 10 = true

/-- What is known about a tie point that comes from the point `p` with the carried position `old`. -/
theorem step_tie {nx ny : Nat} {thr : ℚ} {cor : Int → Int → Int → Int → ℚ} {fit : Fit} {old p : Int × Int} {t : Tie}
    (h : (initStep nx ny 10 20 thr cor fit old p).2 = some t) :
    fits nx ny p.1 p.2 10 = true ∧ t.tx = p.1 ∧ t.ty = p.2 ∧
    ∃ q : Int × Int, (initStep nx ny 10 20 thr cor fit old p).1 = q ∧
      q = (best nx ny 10 (cor p.1 p.2) p.1 p.2 old).1 ∧
      |t.bx - q.1| ≤ 151 / 100 ∧ |t.y - q.2| ≤ 151 / 100 ∧
      ∃ ws, 21 ≤ ws ∧ thr ≤ (fit ws p.1 p.2 q.1 q.2).corr ∧ t.bx = (fit ws p.1 p.2 q.1 q.2).x ∧
        t.y = (fit ws p.1 p.2 q.1 q.2).y ∧ patchOk nx ny p.1 p.2 (ws / 2) = true ∧
        patchOk nx ny (tr (q.1 : ℚ)) (tr (q.2 : ℚ)) ((ws + 2) / 2) = true ∧
        (1 / 10000000000 ≤ |t.bx - q.1| ∨ 1 / 10000000000 ≤ |t.y - q.2|) := by
  unfold initStep at h ⊢
  by_cases hf : fits nx ny p.1 p.2 10 = true
  · rw [hf] at h ⊢
    simp only [Bool.not_true, Bool.false_eq_true, if_false] at h ⊢
    generalize hq : (best nx ny 10 (cor p.1 p.2) p.1 p.2 old).1 = q at h ⊢
    split at h
    · cases h
    · rename_i hr
      injection h with h
      subst h
      unfold rejects at hr
      simp only [Bool.or_eq_true, not_or, decide_eq_true_eq, not_lt, Bool.not_eq_true, gt_iff_lt] at hr
      obtain ⟨⟨⟨h1, h2⟩, h3⟩, h4⟩ := hr
      obtain ⟨ws, w1, w2, w3, w4⟩ := grow_moved h1
      refine ⟨trivial, rfl, rfl, q, rfl, rfl, h2, h3, ws, by omega, ?_, ?_, ?_, w3, w4, ?_⟩
      · rw [← w2]; exact h4
      · rw [← w2]
      · rw [← w2]
      · unfold still at h1
        simp only [Bool.and_eq_false_iff, decide_eq_false_iff_not, not_lt] at h1
        exact h1
  · simp [hf] at h

theorem step_carried {nx ny : Nat} {thr : ℚ} {cor : Int → Int → Int → Int → ℚ} {fit : Fit} {old : Int × Int}
    (p : Int × Int) (h : Carried nx ny old) : Carried nx ny (initStep nx ny 10 20 thr cor fit old p).1 := by
  unfold initStep
  split
  · exact h
  · dsimp only
    rcases best_eq nx ny 10 (cor p.1 p.2) p.1 p.2 old with ⟨h1, _⟩ | ⟨a, b, _, _, h1, h2, _⟩
    · rw [h1]; exact h
    · rw [h1]; exact Or.inr h2

/-- A tie point of the loop comes from one of the points. -/
theorem loop_tie {nx ny : Nat} {thr : ℚ} {cor : Int → Int → Int → Int → ℚ} {fit : Fit} {ps : List (Int × Int)}
    {old : Int × Int} (h : Carried nx ny old) {t : Tie} (ht : t ∈ initLoop nx ny 10 20 thr cor fit old ps) :
    ∃ p ∈ ps, ∃ o, Carried nx ny o ∧ (initStep nx ny 10 20 thr cor fit o p).2 = some t := by
  induction ps generalizing old with
  | nil => simp [initLoop] at ht
  | cons p ps ih =>
    rw [initLoop] at ht
    rcases List.mem_append.1 ht with ht | ht
    · exact ⟨p, List.mem_cons_self, old, h, by simpa using ht⟩
    · obtain ⟨p', hp, o, ho, e⟩ := ih (step_carried p h) ht
      exact ⟨p', List.mem_cons_of_mem _ hp, o, ho, e⟩

/-! ## C272: initial matching -/

/-- C272: every initial match belongs to a point of interest whose window of 21 x 21 pixels lies in the
image; its similarity reaches the threshold; its position in the base image is at least 8.49 pixels away
from the border. -/
theorem c272_margin (nx ny : Nat) (thr : ℚ) (cor : Int → Int → Int → Int → ℚ) (fit : Fit) (poi : List (Int × Int))
    (t : Tie) (ht : t ∈ initialMatching nx ny thr cor fit poi) :
    (t.tx, t.ty) ∈ poi ∧ 10 ≤ t.tx ∧ t.tx + 10 < nx ∧ 10 ≤ t.ty ∧ t.ty + 10 < ny ∧
    849 / 100 ≤ t.bx ∧ t.bx + 949 / 100 ≤ nx ∧ 849 / 100 ≤ t.y ∧ t.y + 949 / 100 ≤ ny ∧
    ∃ ws x1 y1, (⟨t.bx, t.y, (fit ws t.tx t.ty x1 y1).corr⟩ : Hit) = fit ws t.tx t.ty x1 y1 ∧
      thr ≤ (fit ws t.tx t.ty x1 y1).corr := by
  obtain ⟨p, hp, o, ho, e⟩ := loop_tie (Or.inl rfl) ht
  obtain ⟨hf, h1, h2, q, hq, hb, d1, d2, ws, hw, hs, e1, e2, _, pk, _⟩ := step_tie e
  have hf' := (fits_iff _ _ _ _ _).1 hf
  have hc : Carried nx ny q := hq ▸ step_carried p ho
  have hfit : fits nx ny q.1 q.2 10 = true := by
    rcases hc with rfl | hc
    · exfalso
      have h0 : tr (((0 : Int) : ℚ)) = 0 := tr_int.1 (le_refl _)
      dsimp only at pk
      rw [h0] at pk
      have := (patch_bounds pk).1
      have : (11 : Int) ≤ ((ws + 2) / 2 : Nat) := by exact_mod_cast (show 11 ≤ (ws + 2) / 2 by omega)
      omega
    · exact hc
  have g := (fits_iff _ _ _ _ _).1 hfit
  have g1 : (10 : ℚ) ≤ q.1 := by exact_mod_cast g.1
  have g2 : (q.1 : ℚ) + 11 ≤ nx := by exact_mod_cast (show q.1 + 11 ≤ (nx : Int) by have := g.2.1; omega)
  have g3 : (10 : ℚ) ≤ q.2 := by exact_mod_cast g.2.2.1
  have g4 : (q.2 : ℚ) + 11 ≤ ny := by exact_mod_cast (show q.2 + 11 ≤ (ny : Int) by have := g.2.2.2; omega)
  rw [abs_le] at d1 d2
  refine ⟨by rw [h1, h2]; exact hp, by omega, by omega, by omega, by omega, by linarith [d1.1], by linarith [d1.2],
    by linarith [d2.1], by linarith [d2.2], ws, q.1, q.2, ?_, ?_⟩
  · rw [h1, h2, e1, e2]
  · rw [h1, h2]; exact hs

/-- C272, partial: if one of the nine positions around a point correlates positively, the match is within
2.51 pixels of the point. Missing: no position correlates positively. -/
theorem c272_position_partial (nx ny : Nat) (thr : ℚ) (cor : Int → Int → Int → Int → ℚ) (fit : Fit)
    (poi : List (Int × Int)) (t : Tie) (ht : t ∈ initialMatching nx ny thr cor fit poi) (a b : Int)
    (ha : |a| ≤ 1) (hb : |b| ≤ 1) (h1 : 10 ≤ t.tx + a) (h2 : t.tx + a + 10 < nx) (h3 : 10 ≤ t.ty + b)
    (h4 : t.ty + b + 10 < ny) (hc : 0 < cor t.tx t.ty (t.tx + a) (t.ty + b)) :
    |t.bx - t.tx| ≤ 251 / 100 ∧ |t.y - t.ty| ≤ 251 / 100 := by
  obtain ⟨p, hp, o, ho, e⟩ := loop_tie (Or.inl rfl) ht
  obtain ⟨hf, e1, e2, q, hq, hbest, d1, d2, _⟩ := step_tie e
  simp only [e1, e2] at hc h1 h2 h3 h4 ⊢
  rcases best_eq nx ny 10 (cor p.1 p.2) p.1 p.2 o with ⟨_, hn⟩ | ⟨a', b', ha', hb', he, _, _⟩
  · have := hn a b ha hb ((fits_iff _ _ _ _ _).2 (by push_cast; omega))
    linarith
  · rw [he] at hbest
    subst hbest
    dsimp only at d1 d2
    push_cast at d1 d2
    have ha2 : |(a' : ℚ)| ≤ 1 := by exact_mod_cast ha'
    have hb2 : |(b' : ℚ)| ≤ 1 := by exact_mod_cast hb'
    simp only [abs_le] at d1 d2 ha2 hb2 ⊢
    refine ⟨⟨?_, ?_⟩, ?_, ?_⟩ <;> linarith [d1.1, d1.2, d2.1, d2.2, ha2.1, ha2.2, hb2.1, hb2.2]

/-- Correlation that is positive at one place only. -/
def lone (p : Int × Int) : Int → Int → Int → Int → ℚ :=
  fun x2 y2 x y => if (x2, y2) = p ∧ (x, y) = p then 1 else 0

/-- A fit that moves every position by half a pixel, with full similarity. -/
def half : Fit := fun _ _ _ x1 y1 => ⟨x1 + 1 / 2, y1, 1⟩

theorem patch_ok {nx ny : Nat} {x y : Int} {hw : Nat} (h1 : (hw : Int) ≤ x) (h2 : x + hw + 1 < nx) (h3 : (hw : Int) ≤ y)
    (h4 : y + hw + 1 < ny) : patchOk nx ny x y hw = true := by
  unfold patchOk
  rw [List.all_eq_true]
  intro d hd
  have hd := (mem_window hw d).1 hd
  simp only [abs_le] at hd
  rw [tr_int.1 (show 0 ≤ x + d.1 by omega), tr_int.1 (show 0 ≤ y + d.2 by omega)]
  simp only [Bool.not_eq_true', Bool.or_eq_false_iff, decide_eq_false_iff_not]
  omega

/-- One step with this fit, once the start position is known. -/
theorem half_step {nx ny : Nat} {cor : Int → Int → Int → Int → ℚ} {old p q : Int × Int}
    (hp : 11 ≤ p.1 ∧ p.1 + 12 < nx ∧ 11 ≤ p.2 ∧ p.2 + 12 < ny) (hq : 11 ≤ q.1 ∧ q.1 + 12 < nx ∧ 11 ≤ q.2 ∧ q.2 + 12 < ny)
    (hb : (best nx ny 10 (cor p.1 p.2) p.1 p.2 old).1 = q) :
    initStep nx ny 10 20 (99 / 100) cor half old p = (q, some ⟨p.1, p.2, q.1 + 1 / 2, q.2⟩) := by
  have hf : fits nx ny p.1 p.2 10 = true := (fits_iff _ _ _ _ _).2 (by push_cast; omega)
  have hl : lsm nx ny half 21 p.1 p.2 q.1 q.2 = ⟨q.1 + 1 / 2, q.2, 1⟩ := by
    unfold lsm
    rw [tr_int.1 (show 0 ≤ q.1 by omega), tr_int.1 (show 0 ≤ q.2 by omega),
      patch_ok (hw := 21 / 2) (by push_cast; omega) (by push_cast; omega) (by push_cast; omega) (by push_cast; omega),
      patch_ok (hw := (21 + 2) / 2) (by push_cast; omega) (by push_cast; omega) (by push_cast; omega) (by push_cast; omega)]
    rfl
  have hs : still (q.1 : ℚ) q.2 ⟨q.1 + 1 / 2, q.2, 1⟩ = false := by
    unfold still
    rw [Bool.and_eq_false_iff]
    left
    rw [decide_eq_false_iff_not]
    dsimp only
    rw [add_sub_cancel_left]
    norm_num
  have hg : grow nx ny half 4 20 p.1 p.2 q.1 q.2 20 (2 * 10 + 1) = ⟨q.1 + 1 / 2, q.2, 1⟩ := by
    rw [grow]
    rw [hl, hs]
    simp
  have hr : rejects (99 / 100) (q.1 : ℚ) q.2 ⟨q.1 + 1 / 2, q.2, 1⟩ = false := by
    unfold rejects
    rw [hs]
    dsimp only
    rw [add_sub_cancel_left, sub_self]
    norm_num
  unfold initStep
  rw [hf, hb]
  dsimp only
  rw [hg, hr]
  simp

/-- C272, violated: the start position is kept from the point before if no position around a point
correlates positively. For every image size and any two distinct points 13 pixels away from the border there
are correlations such that the second point is matched with the position of the first, however far it is
away: the match lies within one pixel of the first point. (The correlations and the fit are free here; they
are not traced back to images.) -/
theorem c272_stale_violated (nx ny : Nat) (p q : Int × Int) (hpq : p ≠ q)
    (hp : 11 ≤ p.1 ∧ p.1 + 12 < nx ∧ 11 ≤ p.2 ∧ p.2 + 12 < ny) (hq : 11 ≤ q.1 ∧ q.1 + 12 < nx ∧ 11 ≤ q.2 ∧ q.2 + 12 < ny) :
    ∃ (cor : Int → Int → Int → Int → ℚ) (fit : Fit), (∀ a b c d, |cor a b c d| ≤ 1) ∧
      (∀ c d, cor q.1 q.2 c d ≤ 0) ∧
      ∃ t ∈ initialMatching nx ny (99 / 100) cor fit [p, q], (t.tx, t.ty) = q ∧ |t.bx - p.1| ≤ 1 ∧ |t.y - p.2| ≤ 1 := by
  refine ⟨lone p, half, ?_, ?_, ⟨q.1, q.2, p.1 + 1 / 2, p.2⟩, ?_, rfl, ?_, ?_⟩
  · intro a b c d
    unfold lone
    split <;> norm_num
  · intro c d
    unfold lone
    rw [if_neg (fun h => hpq (by rw [← h.1]))]
  · have b1 : (best nx ny 10 (lone p p.1 p.2) p.1 p.2 (0, 0)).1 = p := by
      rcases best_eq nx ny 10 (lone p p.1 p.2) p.1 p.2 (0, 0) with ⟨_, hn⟩ | ⟨a, b, _, _, he, _, hc⟩
      · have := hn 0 0 (by simp) (by simp) ((fits_iff _ _ _ _ _).2 (by push_cast; omega))
        simp only [lone, add_zero, Prod.mk.eta, and_self, if_true] at this
        exact absurd this (by norm_num)
      · rw [he]
        unfold lone at hc
        split at hc
        · rename_i h; exact h.2
        · exact absurd hc (lt_irrefl _)
    have b2 : (best nx ny 10 (lone p q.1 q.2) q.1 q.2 p).1 = p := by
      rcases best_eq nx ny 10 (lone p q.1 q.2) q.1 q.2 p with ⟨h, _⟩ | ⟨a, b, _, _, he, _, hc⟩
      · exact h
      · unfold lone at hc
        rw [if_neg (fun h => hpq (by rw [← h.1]))] at hc
        exact absurd hc (lt_irrefl _)
    unfold initialMatching
    rw [initLoop, half_step hp hp b1]
    dsimp only
    rw [initLoop, half_step hq hp b2]
    simp
  · dsimp only
    rw [add_sub_cancel_left]; norm_num
  · simp

/-- Two points 60 pixels apart. -/
example : ∃ (cor : Int → Int → Int → Int → ℚ) (fit : Fit), (∀ a b c d, |cor a b c d| ≤ 1) ∧
      (∀ c d, cor 80 20 c d ≤ 0) ∧
      ∃ t ∈ initialMatching 100 100 (99 / 100) cor fit [(20, 20), (80, 20)], (t.tx, t.ty) = (80, 20) ∧
        |t.bx - 20| ≤ 1 ∧ |t.y - 20| ≤ 1 := by
  have := c272_stale_violated 100 100 (20, 20) (80, 20) (by decide) (by decide) (by decide)
  exact_mod_cast this

/-! ## C273: depth first matching -/

theorem at_some (im : Img) {j i : Int} (h : 0 ≤ j ∧ j < im.nx ∧ 0 ≤ i ∧ i < im.ny) : im.at j i = some (im.px j i) := by
  unfold Img.at
  rw [if_pos ((inside_iff _ _ _ _).2 h)]

/-- The position of a tie point is in the images of its layer. -/
def Placed (nx ny cum : Nat) (t : Tie) : Prop :=
  0 ≤ t.tx ∧ (t.tx + 1) * cum ≤ nx ∧ 0 ≤ t.ty ∧ (t.ty + 1) * cum ≤ ny ∧
  849 / 100 ≤ t.bx ∧ t.bx + 949 / 100 ≤ nx ∧ 849 / 100 ≤ t.y ∧ t.y + 949 / 100 ≤ ny

/-- What is known about a tie point that passes a layer. -/
def Passed (L : Layer) (cum : Nat) (sam : ℚ) (t t' : Tie) : Prop :=
  t'.tx = t.tx ∧ t'.ty = t.ty ∧
  1000 < L.target.px (t.tx * cum) (t.ty * cum) ∧
  1000 < L.base.px (tr (t.bx * L.scale)) (tr (t.y * L.scale)) ∧
  (t'.bx - t.bx * L.scale) ^ 2 + (t'.y - t.y * L.scale) ^ 2 ≤ L.limit ^ 2 ∧
  ∃ ws, 2 * L.h + 1 ≤ ws ∧
    (⟨t'.bx, t'.y, (L.fit ws (t.tx * cum) (t.ty * cum) (t.bx * L.scale) (t.y * L.scale)).corr⟩ : Hit) =
      L.fit ws (t.tx * cum) (t.ty * cum) (t.bx * L.scale) (t.y * L.scale) ∧
    sam ≤ (L.fit ws (t.tx * cum) (t.ty * cum) (t.bx * L.scale) (t.y * L.scale)).corr

theorem scaled {nx n s cum : Nat} (hs : 2 ≤ s) (h : n / s = nx) {z : Int} (h0 : 0 ≤ z) (h1 : (z + 1) * cum ≤ nx) (hc : 1 ≤ cum) :
    0 ≤ z * ((cum * s : Nat) : Int) ∧ z * ((cum * s : Nat) : Int) < n ∧ (z + 1) * ((cum * s : Nat) : Int) ≤ n := by
  have hn : nx * s ≤ n := by rw [← h]; exact Nat.div_mul_le_self n s
  have hn' : (nx : Int) * s ≤ n := by exact_mod_cast hn
  have hb : (z + 1) * ((cum * s : Nat) : Int) ≤ n := by
    push_cast
    calc (z + 1) * ((cum : Int) * s) = ((z + 1) * cum) * s := by ring
      _ ≤ nx * s := by apply mul_le_mul_of_nonneg_right h1; positivity
      _ ≤ n := hn'
  have hpos : (0 : Int) < ((cum * s : Nat) : Int) := by
    exact_mod_cast Nat.mul_pos hc (by omega)
  refine ⟨mul_nonneg h0 hpos.le, ?_, hb⟩
  have : (z + 1) * ((cum * s : Nat) : Int) = z * ((cum * s : Nat) : Int) + ((cum * s : Nat) : Int) := by ring
  omega

theorem scaledQ {nx n s : Nat} (hs : 2 ≤ s) (h : n / s = nx) {b : ℚ} (h0 : 849 / 100 ≤ b) (h1 : b + 949 / 100 ≤ nx) :
    2 * (849 / 100) ≤ b * s ∧ b * s + 2 * (949 / 100) ≤ n := by
  have hn : nx * s ≤ n := by rw [← h]; exact Nat.div_mul_le_self n s
  have hn' : (nx : ℚ) * s ≤ n := by exact_mod_cast hn
  have hs' : (2 : ℚ) ≤ s := by exact_mod_cast hs
  constructor <;> nlinarith

theorem step_placed {L : Layer} {nx ny cum : Nat} {sam : ℚ} {t : Tie} (hc : 1 ≤ cum) (hs : 2 ≤ L.scale)
    (hx : L.target.nx / L.scale = nx) (hy : L.target.ny / L.scale = ny) (bx : L.base.nx = L.target.nx)
    (by' : L.base.ny = L.target.ny) (h0 : 0 ≤ L.limit) (hl : L.limit ≤ 4 / 10) (h : Placed nx ny cum t) :
    ∃ o, dfStep L (cum * L.scale) sam t = some o ∧
      ∀ t' ∈ o, Placed L.target.nx L.target.ny (cum * L.scale) t' ∧ Passed L (cum * L.scale) sam t t' := by
  obtain ⟨p1, p2, p3, p4, p5, p6, p7, p8⟩ := h
  have sx := scaled hs hx p1 p2 hc
  have sy := scaled hs hy p3 p4 hc
  have qx := scaledQ hs hx p5 p6
  have qy := scaledQ hs hy p7 p8
  unfold dfStep
  dsimp only
  have i1 := tr_inside (x := t.bx * L.scale) (n := L.base.nx) (by linarith [qx.1]) (by rw [bx]; linarith [qx.2])
  have i2 := tr_inside (x := t.y * L.scale) (n := L.base.ny) (by linarith [qy.1]) (by rw [by']; linarith [qy.2])
  rw [at_some L.target ⟨sx.1, sx.2.1, sy.1, sy.2.1⟩, at_some L.base ⟨i1.1, i1.2, i2.1, i2.2⟩]
  simp only [Option.bind_eq_bind, Option.bind_some]
  split
  · exact ⟨none, rfl, by simp⟩
  · rename_i hv
    simp only [not_or, not_le] at hv
    split
    · exact ⟨none, rfl, by simp⟩
    · rename_i hr
      refine ⟨_, rfl, ?_⟩
      intro t' ht'
      simp only [Option.mem_def, Option.some.injEq] at ht'
      simp only [Bool.or_eq_true, not_or, decide_eq_true_eq, not_lt, Bool.not_eq_true, gt_iff_lt] at hr
      obtain ⟨⟨r1, r2⟩, r3⟩ := hr
      obtain ⟨ws, w1, w2, _, _⟩ := grow_moved r1
      generalize grow L.target.nx L.target.ny L.fit L.inc L.maxH (t.tx * ((cum * L.scale : Nat) : Int))
        (t.ty * ((cum * L.scale : Nat) : Int)) (t.bx * L.scale) (t.y * L.scale) L.maxH (2 * L.h + 1) = r at *
      subst ht'
      have hl2 : L.limit ^ 2 ≤ (4 / 10) ^ 2 := by nlinarith
      have dx : |r.x - t.bx * L.scale| ≤ 4 / 10 := by
        apply abs_le_of_sq_le_sq _ (by norm_num)
        nlinarith [sq_nonneg (r.y - t.y * L.scale)]
      have dy : |r.y - t.y * L.scale| ≤ 4 / 10 := by
        apply abs_le_of_sq_le_sq _ (by norm_num)
        nlinarith [sq_nonneg (r.x - t.bx * L.scale)]
      rw [abs_le] at dx dy
      refine ⟨⟨p1, sx.2.2, p3, sy.2.2, ?_, ?_, ?_, ?_⟩, rfl, rfl, hv.1, hv.2, r2, ws, w1, ?_, ?_⟩
      · dsimp only; linarith [dx.1, qx.1]
      · dsimp only; linarith [dx.2, qx.2]
      · dsimp only; linarith [dy.1, qy.1]
      · dsimp only; linarith [dy.2, qy.2]
      · rw [← w2]
      · rw [← w2]; exact r3

theorem layer_placed {L : Layer} {nx ny cum : Nat} {sam : ℚ} (hc : 1 ≤ cum) (hs : 2 ≤ L.scale)
    (hx : L.target.nx / L.scale = nx) (hy : L.target.ny / L.scale = ny) (bx : L.base.nx = L.target.nx)
    (by' : L.base.ny = L.target.ny) (h0 : 0 ≤ L.limit) (hl : L.limit ≤ 4 / 10) (ts : List Tie)
    (h : ∀ t ∈ ts, Placed nx ny cum t) :
    ∃ ts', dfLayer L (cum * L.scale) sam ts = some ts' ∧ ∀ t' ∈ ts',
      Placed L.target.nx L.target.ny (cum * L.scale) t' ∧ ∃ t ∈ ts, Passed L (cum * L.scale) sam t t' := by
  induction ts with
  | nil => exact ⟨[], rfl, by simp⟩
  | cons t ts ih =>
    obtain ⟨rs, e, hrs⟩ := ih (fun u hu => h u (List.mem_cons_of_mem _ hu))
    obtain ⟨o, eo, ho⟩ := step_placed (sam := sam) hc hs hx hy bx by' h0 hl (h t List.mem_cons_self)
    refine ⟨o.toList ++ rs, by rw [dfLayer, eo, e], ?_⟩
    intro t' ht'
    rcases List.mem_append.1 ht' with ht' | ht'
    · have := ho t' (by simpa using ht')
      exact ⟨this.1, t, List.mem_cons_self, this.2⟩
    · obtain ⟨g1, u, hu, g2⟩ := hrs t' ht'
      exact ⟨g1, u, List.mem_cons_of_mem _ hu, g2⟩

theorem layers_placed (sam : ℚ) (Ls : List Layer) (nx ny cum : Nat) (hc : 1 ≤ cum) (ts : List Tie)
    (hp : Spec.Pyramid nx ny Ls) (h : ∀ t ∈ ts, Placed nx ny cum t) : ∃ l, dfLayers sam Ls cum ts = some l := by
  induction Ls generalizing nx ny cum ts with
  | nil => exact ⟨_, rfl⟩
  | cons L Ls ih =>
    obtain ⟨hs, hx, hy, bx, by', h0, hl, hr⟩ := hp
    obtain ⟨ts', e, hts⟩ := layer_placed (sam := sam) hc hs hx hy bx by' h0 hl ts h
    rw [dfLayers, e]
    exact ih _ _ _ (Nat.mul_pos hc (by omega)) _ hr (fun t ht => (hts t ht).1)

theorem initial_placed {nx ny : Nat} {thr : ℚ} {cor : Int → Int → Int → Int → ℚ} {fit : Fit} {poi : List (Int × Int)} :
    ∀ t ∈ initialMatching nx ny thr cor fit poi, Placed nx ny 1 t := by
  intro t ht
  obtain ⟨_, h1, h2, h3, h4, h5, h6, h7, h8, _⟩ := c272_margin nx ny thr cor fit poi t ht
  exact ⟨by omega, by push_cast; omega, by omega, by push_cast; omega, h5, h6, h7, h8⟩

/-- C273: for all points, correlations and fits, and for every pyramid below the top layer, following the
initial matches down to the full resolution never reads outside of the images. -/
theorem c273_reads (nx ny : Nat) (thr sam : ℚ) (cor : Int → Int → Int → Int → ℚ) (fit : Fit) (poi : List (Int × Int))
    (Ls : List Layer) (hp : Spec.Pyramid nx ny Ls) :
    dfLayers sam Ls 1 (initialMatching nx ny thr cor fit poi) ≠ none := by
  obtain ⟨l, e⟩ := layers_placed sam Ls nx ny 1 (le_refl _) _ hp initial_placed
  rw [e]
  simp

/-- A layer of scale 2. -/
def Spec.Double (L : Layer) (limit : ℚ) : Prop := L.scale = 2 ∧ L.limit = limit

/-- C273: with three layers of scale 2 below the top layer and the limits of the code, a tie point belongs to
a point of interest (scaled by 8). Both images have a value above 1000 at the tie point (the base image
where the match was expected), the similarity reaches the threshold. If the initial match was within 2.51
pixels of the point, the tie point connects positions that differ by at most 22.58 pixels in x and in y. -/
theorem c273_ties (nx ny : Nat) (thr sam : ℚ) (cor : Int → Int → Int → Int → ℚ) (fit : Fit) (poi : List (Int × Int))
    (A B C : Layer) (hp : Spec.Pyramid nx ny [A, B, C]) (hA : Spec.Double A (35 / 100)) (hB : Spec.Double B (35 / 100))
    (hC : Spec.Double C (4 / 10)) (l : List Tie)
    (hl : dfLayers sam [A, B, C] 1 (initialMatching nx ny thr cor fit poi) = some l) (t : Tie) (ht : t ∈ l) :
    (∃ t0 ∈ initialMatching nx ny thr cor fit poi, (t0.tx, t0.ty) ∈ poi ∧ t.tx = 8 * t0.tx ∧ t.ty = 8 * t0.ty ∧
      (|t0.bx - t0.tx| ≤ 251 / 100 → |t.bx - t.tx| ≤ 2258 / 100) ∧
      (|t0.y - t0.ty| ≤ 251 / 100 → |t.y - t.ty| ≤ 2258 / 100)) ∧
    1000 < C.target.px t.tx t.ty ∧
    (∃ j i, 1000 < C.base.px j i ∧ |t.bx - j| < 14001 / 10000 ∧ |t.y - i| < 14001 / 10000) ∧
    (∃ ws x1 y1, (⟨t.bx, t.y, (C.fit ws t.tx t.ty x1 y1).corr⟩ : Hit) = C.fit ws t.tx t.ty x1 y1 ∧
      sam ≤ (C.fit ws t.tx t.ty x1 y1).corr) := by
  obtain ⟨sA, xA, yA, bA, cA, l0A, lA, sB, xB, yB, bB, cB, l0B, lB, sC, xC, yC, bC, cC, l0C, lC, _⟩ := hp
  obtain ⟨eA, mA⟩ := hA
  obtain ⟨eB, mB⟩ := hB
  obtain ⟨eC, mC⟩ := hC
  obtain ⟨t1s, e1, h1⟩ := layer_placed (sam := sam) (le_refl 1) sA xA yA bA cA l0A lA
    (initialMatching nx ny thr cor fit poi) initial_placed
  rw [dfLayers, e1] at hl
  dsimp only at hl
  have c1 : 1 ≤ 1 * A.scale := by omega
  obtain ⟨t2s, e2, h2⟩ := layer_placed (sam := sam) c1 sB xB yB bB cB l0B lB t1s (fun u hu => (h1 u hu).1)
  rw [dfLayers, e2] at hl
  dsimp only at hl
  have c2 : 1 ≤ 1 * A.scale * B.scale := Nat.mul_pos c1 (by omega)
  obtain ⟨t3s, e3, h3⟩ := layer_placed (sam := sam) c2 sC xC yC bC cC l0C lC t2s (fun u hu => (h2 u hu).1)
  rw [dfLayers, e3] at hl
  dsimp only [dfLayers] at hl
  injection hl with hl
  subst hl
  obtain ⟨t3, ht3, rfl⟩ := List.mem_map.1 ht
  obtain ⟨pl3, t2, ht2, p3⟩ := h3 t3 ht3
  obtain ⟨pl2, t1, ht1, p2⟩ := h2 t2 ht2
  obtain ⟨pl1, t0, ht0, p1⟩ := h1 t1 ht1
  have cum : ((1 * A.scale * B.scale * C.scale : Nat) : Int) = 8 := by rw [eA, eB, eC]; norm_num
  obtain ⟨a1, a2, a3, a4, a5, a6⟩ := p3
  obtain ⟨b1, b2, b3, b4, b5, b6⟩ := p2
  obtain ⟨d1, d2, d3, d4, d5, d6⟩ := p1
  have tx : t3.tx = t0.tx := by rw [a1, b1, d1]
  have ty : t3.ty = t0.ty := by rw [a2, b2, d2]
  have hpoi := (c272_margin nx ny thr cor fit poi t0 ht0).1
  have lim : ∀ {x y m : ℚ}, 0 ≤ m → x ^ 2 + y ^ 2 ≤ m ^ 2 → |x| ≤ m ∧ |y| ≤ m := by
    intro x y m hm h
    exact ⟨abs_le_of_sq_le_sq (by nlinarith [sq_nonneg y]) hm, abs_le_of_sq_le_sq (by nlinarith [sq_nonneg x]) hm⟩
  rw [mC, eC] at a5
  rw [mB, eB] at b5
  rw [mA, eA] at d5
  have A5 := lim (by norm_num) a5
  have B5 := lim (by norm_num) b5
  have D5 := lim (by norm_num) d5
  push_cast at A5 B5 D5
  simp only [abs_le] at A5 B5 D5
  obtain ⟨⟨A1, A2⟩, A3, A4⟩ := A5
  obtain ⟨⟨B1, B2⟩, B3, B4⟩ := B5
  obtain ⟨⟨D1, D2⟩, D3, D4⟩ := D5
  dsimp only
  rw [cum] at *
  refine ⟨⟨t0, ht0, hpoi, by rw [tx]; ring, by rw [ty]; ring, ?_, ?_⟩, ?_, ?_, ?_⟩
  · intro h
    rw [tx]
    push_cast
    rw [abs_le] at h ⊢
    constructor <;> linarith [h.1, h.2]
  · intro h
    rw [ty]
    push_cast
    rw [abs_le] at h ⊢
    constructor <;> linarith [h.1, h.2]
  · rw [a1, a2]; exact a3
  · refine ⟨_, _, a4, ?_, ?_⟩
    · rw [eC]
      have hb := pl2.2.2.2.2.1
      rw [tr_nonneg (by push_cast; linarith)]
      have f1 := Int.floor_le (t2.bx * ((2 : Nat) : ℚ) + 1 / 10000000000)
      have f2 := Int.lt_floor_add_one (t2.bx * ((2 : Nat) : ℚ) + 1 / 10000000000)
      push_cast at f1 f2 ⊢
      rw [abs_lt]
      constructor <;> linarith
    · rw [eC]
      have hb := pl2.2.2.2.2.2.2.1
      rw [tr_nonneg (by push_cast; linarith)]
      have f1 := Int.floor_le (t2.y * ((2 : Nat) : ℚ) + 1 / 10000000000)
      have f2 := Int.lt_floor_add_one (t2.y * ((2 : Nat) : ℚ) + 1 / 10000000000)
      push_cast at f1 f2 ⊢
      rw [abs_lt]
      constructor <;> linarith
  · obtain ⟨ws, _, g1, g2⟩ := a6
    rw [a1, a2]
    exact ⟨ws, _, _, g1, g2⟩

/-- A fit that moves every position by a quarter of a pixel. -/
def quarter : Fit := fun _ _ _ x1 y1 => ⟨x1 + 1 / 4, y1, 1⟩

/-- A layer of `n` x `n` bright pixels. -/
def exLayer (n : Nat) (limit : ℚ) : Layer :=
  ⟨⟨n, n, fun _ _ => 2000⟩, ⟨n, n, fun _ _ => 2000⟩, 2, 14, 28, 4, limit, quarter⟩

/-- The pyramid of the example. -/
example : Spec.Pyramid 40 40 [exLayer 80 (35 / 100), exLayer 160 (35 / 100), exLayer 320 (4 / 10)] := by
  simp only [Spec.Pyramid, exLayer]
  norm_num

set_option maxRecDepth 100000 in
/-- Of two points one is too close to the border; the other moves by a quarter of a pixel on every layer. -/
example : dfLayers (99 / 100) [exLayer 80 (35 / 100), exLayer 160 (35 / 100), exLayer 320 (4 / 10)] 1
    (initialMatching 40 40 (99 / 100) (lone (20, 18)) quarter [(3, 3), (20, 18)]) =
    some [⟨160, 144, 163 + 3 / 4, 144⟩] := by decide +kernel

/-! ## C274: dense matching -/

/-- C274: all grid points of dense matching lie in the images, so that nothing outside of them is read. -/
theorem c274_reads (target base : Img) (nodata : Int) (predict : Int → Int → ℚ × ℚ) (rmse sam : ℚ) (maxH step : Nat)
    (fit : Fit) (hs : 1 ≤ step) (hx : base.nx = target.nx) (hy : base.ny = target.ny) :
    ∀ c ∈ denseGrid target.nx target.ny step, denseCell target base nodata predict rmse sam maxH fit c.1 c.2 ≠ none := by
  intro c hc
  unfold denseGrid at hc
  simp only [List.mem_flatMap, List.mem_map, List.mem_range] at hc
  obtain ⟨b, hb, a, ha, rfl⟩ := hc
  have key : ∀ n u : Nat, u < n / step → u * step < n := by
    intro n u hu
    have h1 : (u + 1) * step ≤ n / step * step := Nat.mul_le_mul_right _ hu
    have h2 := Nat.div_mul_le_self n step
    have h3 : (u + 1) * step = u * step + step := by ring
    omega
  have k1 := key _ _ ha
  have k2 := key _ _ hb
  unfold denseCell
  rw [at_some target (by dsimp only; omega), at_some base (by dsimp only; omega)]
  simp only [Option.bind_eq_bind, Option.bind_some]
  split
  · simp
  · split
    · simp
    · split <;> simp

/-- C274: a grid point gets a shift only if both images have a value above 1000 there, no pixel of the target
image within 20 rows and columns is nodata, the match lies within 2 pixels and within the larger of 0.5
pixels and three times the error of the transformation from the predicted position, and the similarity is at
least 0.985 and at least the threshold minus 0.005. The shift is the difference between the match and the
grid point. The point is at least 19 pixels away from the left and upper and 21 from the other borders. -/
theorem c274_match (target base : Img) (nodata : Int) (predict : Int → Int → ℚ × ℚ) (rmse sam : ℚ) (maxH : Nat)
    (fit : Fit) (j i : Int) (s : Hit)
    (h : denseCell target base nodata predict rmse sam maxH fit j i = some (some s)) :
    1000 < target.px j i ∧ 1000 < base.px j i ∧
    (∀ a b : Int, |a| ≤ 20 → |b| ≤ 20 → 0 ≤ j + a → j + a < target.nx → 0 ≤ i + b → i + b < target.ny →
      target.px (j + a) (i + b) ≠ nodata) ∧
    (j + s.x - (predict j i).1) ^ 2 + (i + s.y - (predict j i).2) ^ 2 ≤ 2 ^ 2 ∧
    (j + s.x - (predict j i).1) ^ 2 + (i + s.y - (predict j i).2) ^ 2 ≤ (max (1 / 2) (rmse * 3)) ^ 2 ∧
    985 / 1000 ≤ s.corr ∧ sam - 5 / 1000 ≤ s.corr ∧
    19 ≤ j ∧ j + 21 < target.nx ∧ 19 ≤ i ∧ i + 21 < target.ny ∧
    ∃ ws, 41 ≤ ws ∧ (⟨j + s.x, i + s.y, s.corr⟩ : Hit) = fit ws j i (predict j i).1 (predict j i).2 := by
  unfold denseCell at h
  rcases ha : target.at j i with _ | a
  · simp [ha] at h
  rcases hb : base.at j i with _ | b
  · simp [ha, hb] at h
  have ea : a = target.px j i := by
    unfold Img.at at ha
    split at ha
    · injection ha with ha; exact ha.symm
    · cases ha
  have eb : b = base.px j i := by
    unfold Img.at at hb
    split at hb
    · injection hb with hb; exact hb.symm
    · cases hb
  rw [ha, hb] at h
  simp only [Option.bind_eq_bind, Option.bind_some] at h
  split at h
  · simp at h
  rename_i hv
  simp only [not_or, not_le] at hv
  split at h
  · simp at h
  rename_i hw
  split at h
  swap
  · simp at h
  rename_i hr
  simp only [Bool.not_eq_true', Bool.or_eq_false_iff, decide_eq_false_iff_not, gt_iff_lt, not_lt] at hr
  obtain ⟨⟨r1, r2⟩, r3⟩ := hr
  obtain ⟨ws, w1, w2, w3, _⟩ := grow_moved r1
  generalize grow target.nx target.ny fit 4 maxH j i (predict j i).1 (predict j i).2 maxH 41 = r at *
  simp only [Option.some.injEq] at h
  subst h
  dsimp only
  have e1 : (j : ℚ) + (r.x - j) = r.x := by ring
  have e2 : (i : ℚ) + (r.y - i) = r.y := by ring
  rw [e1, e2]
  have hpos : 0 ≤ denseLimit rmse := by
    unfold denseLimit
    exact le_min (le_max_of_le_left (by norm_num)) (by norm_num)
  have l1 : denseLimit rmse ≤ 2 := min_le_right _ _
  have l2 : denseLimit rmse ≤ max (1 / 2) (rmse * 3) := min_le_left _ _
  have hp := patch_bounds w3
  have h20 : (20 : Int) ≤ (ws / 2 : Nat) := by exact_mod_cast (show 20 ≤ ws / 2 by omega)
  have hs1 : 985 / 1000 ≤ denseSam sam ∧ sam - 5 / 1000 ≤ denseSam sam := by
    unfold denseSam
    split <;> constructor <;> linarith
  refine ⟨ea ▸ hv.1, eb ▸ hv.2, ?_, r2.trans (pow_le_pow_left₀ hpos l1 2), r2.trans (pow_le_pow_left₀ hpos l2 2),
    hs1.1.trans r3, hs1.2.trans r3, by omega, by omega, by omega, by omega, ws, w1, ?_⟩
  · have := (find_iff target j i 20 nodata).1 (by simpa using hw)
    intro a' b' ha' hb'
    exact this a' b' (by simpa using ha') (by simpa using hb')
  · rw [← w2]

/-- C274: conversely, a bright and complete window far enough from the border whose fit moves by at least
1e-10 and at most 0.5 pixels, with a similarity of at least the threshold and 0.985, gets its shift. -/
theorem c274_found (target base : Img) (nodata : Int) (predict : Int → Int → ℚ × ℚ) (rmse sam : ℚ) (maxH : Nat)
    (fit : Fit) (j i : Int) (hx : base.nx = target.nx) (hy : base.ny = target.ny)
    (hj : 20 ≤ j ∧ j + 21 < target.nx) (hi : 20 ≤ i ∧ i + 21 < target.ny)
    (hpx : 21 ≤ (predict j i).1 ∧ (predict j i).1 + 23 < target.nx)
    (hpy : 21 ≤ (predict j i).2 ∧ (predict j i).2 + 23 < target.ny)
    (hv : 1000 < target.px j i ∧ 1000 < base.px j i)
    (hw : ∀ a b : Int, |a| ≤ 20 → |b| ≤ 20 → target.px (j + a) (i + b) ≠ nodata)
    (h1 : 1 / 10000000000 ≤ |(fit 41 j i (predict j i).1 (predict j i).2).x - (predict j i).1|)
    (h2 : ((fit 41 j i (predict j i).1 (predict j i).2).x - (predict j i).1) ^ 2 +
      ((fit 41 j i (predict j i).1 (predict j i).2).y - (predict j i).2) ^ 2 ≤ (1 / 2) ^ 2)
    (h3 : 985 / 1000 ≤ (fit 41 j i (predict j i).1 (predict j i).2).corr)
    (h4 : sam ≤ (fit 41 j i (predict j i).1 (predict j i).2).corr) :
    denseCell target base nodata predict rmse sam maxH fit j i =
      some (some ⟨(fit 41 j i (predict j i).1 (predict j i).2).x - j,
        (fit 41 j i (predict j i).1 (predict j i).2).y - i, (fit 41 j i (predict j i).1 (predict j i).2).corr⟩) := by
  have trb : ∀ (x : ℚ) (n : Nat), 21 ≤ x → x + 23 < n → (21 : Int) ≤ tr x ∧ tr x + 21 + 1 < n := by
    intro x n a b
    rw [tr_nonneg (by linarith)]
    have f1 : (21 : Int) ≤ ⌊x + 1 / 10000000000⌋ := by
      rw [Int.le_floor]; push_cast; linarith
    have f2 : ⌊x + 1 / 10000000000⌋ < (n : Int) - 22 := by
      rw [Int.floor_lt]; push_cast; linarith
    omega
  have bx := trb _ _ hpx.1 hpx.2
  have by' := trb _ _ hpy.1 hpy.2
  have hl : lsm target.nx target.ny fit 41 j i (predict j i).1 (predict j i).2 =
      fit 41 j i (predict j i).1 (predict j i).2 := by
    unfold lsm
    rw [patch_ok (hw := 41 / 2) (by push_cast; omega) (by push_cast; omega) (by push_cast; omega) (by push_cast; omega),
      patch_ok (hw := (41 + 2) / 2) (by push_cast; omega) (by push_cast; omega) (by push_cast; omega) (by push_cast; omega)]
    rfl
  have hs : still (predict j i).1 (predict j i).2 (fit 41 j i (predict j i).1 (predict j i).2) = false := by
    unfold still
    rw [Bool.and_eq_false_iff]
    left
    rw [decide_eq_false_iff_not, not_lt]
    exact h1
  have hg : grow target.nx target.ny fit 4 maxH j i (predict j i).1 (predict j i).2 maxH 41 =
      fit 41 j i (predict j i).1 (predict j i).2 := by
    cases maxH with
    | zero => rw [grow, hl]
    | succ k =>
      rw [grow]
      rw [hl, hs]
      simp
  unfold denseCell
  rw [at_some target (by omega), at_some base (by omega)]
  simp only [Option.bind_eq_bind, Option.bind_some]
  rw [if_neg (by omega), if_neg (by
    rw [Bool.not_eq_true, find_iff]
    intro a b ha hb _ _ _ _
    exact hw a b (by simpa using ha) (by simpa using hb)), hg, hs, if_pos]
  have hlim : 1 / 2 ≤ denseLimit rmse := by
    unfold denseLimit
    exact le_min (le_max_left _ _) (by norm_num)
  have hsam : denseSam sam ≤ (fit 41 j i (predict j i).1 (predict j i).2).corr := by
    unfold denseSam
    split <;> linarith
  simp only [Bool.false_or, Bool.not_eq_true', Bool.or_eq_false_iff, decide_eq_false_iff_not, gt_iff_lt, not_lt]
  exact ⟨h2.trans (pow_le_pow_left₀ (by norm_num) hlim 2), hsam⟩

set_option maxRecDepth 100000 in
/-- A grid point in the middle of a bright image. -/
example : denseCell ⟨60, 60, fun _ _ => 2000⟩ ⟨60, 60, fun _ _ => 2000⟩ (-9999) (fun j i => (j, i)) (1 / 10) (99 / 100)
    57 quarter 30 30 = some (some ⟨1 / 4, 0, 1⟩) := by decide +kernel

/-! ## C275: the iterative fit ends -/

/-- C275: the fit ends: if no similarity exceeds `B` (in units of the smallest float), it takes no more
iterations than the similarity can increase, plus one, and further iterations change nothing. -/
theorem c275_ends {S : Type} (next : S → Next S) (B : Int) (hB : ∀ s s' cr', next s = .moved s' cr' → cr' ≤ B)
    (s : S) (cr : Int) (k : Nat) (hk : B - cr + 1 ≤ k) (h1 : 1 ≤ k) :
    ∃ e, ∀ m, k ≤ m → refine next m s cr = some e := by
  induction k generalizing s cr with
  | zero => omega
  | succ k ih =>
    rcases hn : next s with _ | _ | ⟨s', cr'⟩
    · refine ⟨.found s cr, fun m hm => ?_⟩
      obtain ⟨m, rfl⟩ : ∃ n, m = n + 1 := ⟨m - 1, by omega⟩
      rw [refine, hn]
    · refine ⟨.fail, fun m hm => ?_⟩
      obtain ⟨m, rfl⟩ : ∃ n, m = n + 1 := ⟨m - 1, by omega⟩
      rw [refine, hn]
    · by_cases hc : cr' > cr
      · have := hB s s' cr' hn
        obtain ⟨e, he⟩ := ih s' cr' (by omega) (by omega)
        refine ⟨e, fun m hm => ?_⟩
        obtain ⟨m, rfl⟩ : ∃ n, m = n + 1 := ⟨m - 1, by omega⟩
        rw [refine, hn]
        dsimp only
        rw [if_pos hc]
        exact he m (by omega)
      · refine ⟨.found s cr, fun m hm => ?_⟩
        obtain ⟨m, rfl⟩ : ∃ n, m = n + 1 := ⟨m - 1, by omega⟩
        rw [refine, hn]
        dsimp only
        rw [if_neg hc]

/-- C275: for floats between -1 and 1, whatever the images are. The smallest positive float is 2^-149. -/
theorem c275_float {S : Type} (next : S → Next S) (hB : ∀ s s' cr', next s = .moved s' cr' → cr' ≤ 2 ^ 149)
    (s : S) (cr : Int) (hc : -2 ^ 149 ≤ cr) : ∃ e, ∀ m, 2 ^ 150 + 1 ≤ m → refine next m s cr = some e := by
  refine c275_ends next (2 ^ 149) hB s cr (2 ^ 150 + 1) ?_ (by norm_num)
  push_cast
  have : (2 : Int) ^ 150 = 2 ^ 149 + 2 ^ 149 := by norm_num
  omega

/-- C275: the parameters in the end are reached from the start by iterations that each increase the
similarity, and the next iteration, if any, would not increase it. -/
theorem c275_best {S : Type} (next : S → Next S) (k : Nat) (s s' : S) (cr cr' : Int)
    (h : refine next k s cr = some (.found s' cr')) :
    Spec.Climb next s cr s' cr' ∧ cr ≤ cr' ∧ next s' ≠ .outside ∧ ∀ t c, next s' = .moved t c → c ≤ cr' := by
  induction k generalizing s cr with
  | zero => simp [refine] at h
  | succ k ih =>
    rw [refine] at h
    rcases hn : next s with _ | _ | ⟨s1, cr1⟩
    · simp only [hn, Option.some.injEq, End.found.injEq] at h
      obtain ⟨rfl, rfl⟩ := h
      refine ⟨.stay _ _, le_refl _, by rw [hn]; simp, ?_⟩
      intro t c e
      rw [hn] at e
      cases e
    · simp [hn] at h
    · simp only [hn] at h
      by_cases hc : cr1 > cr
      · rw [if_pos hc] at h
        obtain ⟨g1, g2, g3⟩ := ih s1 cr1 h
        exact ⟨.up hn hc g1, by omega, g3⟩
      · rw [if_neg hc] at h
        simp only [Option.some.injEq, End.found.injEq] at h
        obtain ⟨rfl, rfl⟩ := h
        refine ⟨.stay _ _, le_refl _, by rw [hn]; simp, ?_⟩
        intro t c e
        rw [hn] at e
        injection e with e1 e2
        omega

/-- Three iterations, the last of which does not help. -/
example : refine (fun s : Nat => if s < 2 then .moved (s + 1) (s + 10) else .moved (s + 1) 3) 10 0 5 =
    some (.found 2 11) := by decide

end Verif.Match
