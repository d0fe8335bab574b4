import Mathlib.Data.List.Nodup
import Mathlib.Data.List.Perm.Basic
import Mathlib.Data.List.Perm.Subperm
import Verif.Index.Lemmas
import Verif.Match.Model

/-!
# Properties C271: points of interest
-/

namespace Verif.Match

/-! ## Specification -/

/-- A point of interest with the limit `t`: 7 pixels away from the border, both images valid in
the 15 x 15 window around it, the gradients change their sign from plus to minus to the right and
below, and the strength exceeds the limit. -/
def Spec.Corner (target base : Img) (f : Fields) (t : ℚ) (c : Int × Int) : Prop :=
  7 ≤ c.1 ∧ c.1 + 7 < target.nx ∧ 7 ≤ c.2 ∧ c.2 + 7 < target.ny ∧
  (∀ a b : Int, |a| ≤ 7 → |b| ≤ 7 →
    0 < target.px (c.1 + a) (c.2 + b) ∧ 0 < base.px (c.1 + a) (c.2 + b)) ∧
  0 < f.gx c.1 c.2 ∧ f.gx (c.1 + 1) c.2 < 0 ∧ 0 < f.gy c.1 c.2 ∧ f.gy c.1 (c.2 + 1) < 0 ∧
  t < f.strength c.1 c.2

/-! ## Lemmas -/

theorem mem_span (w : Nat) (a : Int) : a ∈ span w ↔ |a| ≤ w := by
  unfold span
  simp only [List.mem_map, List.mem_range]
  constructor
  · rintro ⟨k, hk, rfl⟩
    rw [abs_le]; omega
  · intro h
    rw [abs_le] at h
    exact ⟨(a + w).toNat, by omega, by omega⟩

theorem mem_window (w : Nat) (d : Int × Int) : d ∈ window w ↔ |d.1| ≤ w ∧ |d.2| ≤ w := by
  unfold window
  simp only [List.mem_flatMap, List.mem_map, mem_span]
  constructor
  · rintro ⟨b, hb, a, ha, rfl⟩
    exact ⟨ha, hb⟩
  · rintro ⟨h1, h2⟩
    exact ⟨d.2, h2, d.1, h1, rfl⟩

theorem inside_iff (nx ny : Nat) (j i : Int) :
    inside nx ny j i = true ↔ 0 ≤ j ∧ j < nx ∧ 0 ≤ i ∧ i < ny := by
  unfold inside
  simp only [Bool.and_eq_true, decide_eq_true_eq]
  tauto

theorem find_iff (im : Img) (x y : Int) (w : Nat) (v : Int) :
    findInWindow im x y w v = false ↔
    ∀ a b : Int, |a| ≤ w → |b| ≤ w → 0 ≤ x + a → x + a < im.nx → 0 ≤ y + b → y + b < im.ny →
      im.px (x + a) (y + b) ≠ v := by
  unfold findInWindow
  rw [List.any_eq_false]
  constructor
  · intro h a b ha hb h1 h2 h3 h4 e
    apply h (a, b) ((mem_window w (a, b)).2 ⟨ha, hb⟩)
    unfold Img.at
    rw [if_pos ((inside_iff _ _ _ _).2 ⟨h1, h2, h3, h4⟩)]
    simp [e]
  · intro h d hd
    have hd := (mem_window w d).1 hd
    unfold Img.at
    split
    · rename_i hi
      have hi := (inside_iff _ _ _ _).1 hi
      have := h d.1 d.2 hd.1 hd.2 hi.1 hi.2.1 hi.2.2.1 hi.2.2.2
      simpa using this
    · simp

theorem mem_cells (im : Img) (c : Int × Int) :
    c ∈ cells im ↔ 7 ≤ c.1 ∧ c.1 + 7 < im.nx ∧ 7 ≤ c.2 ∧ c.2 + 7 < im.ny := by
  unfold cells
  simp only [List.mem_flatMap, List.mem_map, List.mem_range]
  constructor
  · rintro ⟨b, hb, a, ha, rfl⟩
    dsimp only
    omega
  · rintro ⟨h1, h2, h3, h4⟩
    refine ⟨(c.2 - 7).toNat, by omega, (c.1 - 7).toNat, by omega, ?_⟩
    ext <;> dsimp only <;> omega

theorem nodup_cells (im : Img) : (cells im).Nodup := by
  unfold cells
  rw [List.nodup_flatMap]
  refine ⟨fun b _ => ?_, ?_⟩
  · refine (List.nodup_range).map ?_
    intro a a' h
    simp only [Prod.mk.injEq] at h
    omega
  · refine (List.nodup_range).imp ?_
    intro a b hab
    simp only [Function.onFun, List.disjoint_left, List.mem_map]
    rintro c ⟨u, _, rfl⟩ ⟨u', _, h⟩
    simp only [Prod.mk.injEq] at h
    omega

theorem field_some (im : Img) (f : Int → Int → ℚ) {j i : Int} (h : 0 ≤ j ∧ j < im.nx ∧ 0 ≤ i ∧ i < im.ny) :
    fieldAt im f j i = some (f j i) := by
  unfold fieldAt
  rw [if_pos ((inside_iff _ _ _ _).2 h)]

/-- The masked image of the code. -/
theorem isPoint_eq (target base : Img) (nodata : Int) (smaller : Bool) (f : Fields) (t : ℚ)
    (hn : nodata ≤ 0) (hx : base.nx = target.nx) (hy : base.ny = target.ny) (c : Int × Int)
    (hc : 7 ≤ c.1 ∧ c.1 + 7 < target.nx ∧ 7 ≤ c.2 ∧ c.2 + 7 < target.ny) :
    ∃ b, isPoint (applyMask (if smaller then target else base) (mask target base) nodata) nodata f t c =
      some b ∧ (b = true ↔ Spec.Corner target base f t c) := by
  have hX : (applyMask (if smaller then target else base) (mask target base) nodata).nx = target.nx := by
    unfold applyMask; cases smaller <;> simp [hx]
  have hY : (applyMask (if smaller then target else base) (mask target base) nodata).ny = target.ny := by
    unfold applyMask; cases smaller <;> simp [hy]
  have hP : ∀ j i, (applyMask (if smaller then target else base) (mask target base) nodata).px j i ≠ nodata ↔
      0 < target.px j i ∧ 0 < base.px j i := by
    intro j i
    unfold applyMask mask
    dsimp only
    by_cases h : 0 < target.px j i ∧ 0 < base.px j i
    · rw [if_pos (by simpa using h)]
      refine ⟨fun _ => h, fun _ => ?_⟩
      cases smaller <;> simp only [if_true, Bool.false_eq_true, if_false] <;> omega
    · rw [if_neg (by simpa using h)]
      simpa using h
  generalize applyMask (if smaller then target else base) (mask target base) nodata = im at *
  unfold isPoint
  rw [field_some _ _ (by omega), field_some _ _ (by omega), field_some _ _ (by omega),
    field_some _ _ (by omega), field_some _ _ (by omega)]
  refine ⟨_, rfl, ?_⟩
  simp only [Bool.and_eq_true, Bool.not_eq_true', decide_eq_true_eq, find_iff]
  unfold Spec.Corner
  constructor
  · rintro ⟨hw, ⟨⟨⟨h1, h2⟩, h3⟩, h4⟩, h5⟩
    refine ⟨hc.1, hc.2.1, hc.2.2.1, hc.2.2.2, ?_, h1, h2, h3, h4, h5⟩
    intro a b ha hb
    have h := hw a b (by simpa using ha) (by simpa using hb)
    rw [abs_le] at ha hb
    exact (hP _ _).1 (h (by omega) (by omega) (by omega) (by omega))
  · rintro ⟨_, _, _, _, hw, h1, h2, h3, h4, h5⟩
    refine ⟨?_, ⟨⟨⟨h1, h2⟩, h3⟩, h4⟩, h5⟩
    intro a b ha hb _ _ _ _
    exact (hP _ _).2 (hw a b (by simpa using ha) (by simpa using hb))

/-- Selecting pixels, with a test that never leaves the arrays. -/
theorem select_eq (im : Img) (nodata : Int) (f : Fields) (t : ℚ) (cs : List (Int × Int)) (P : Int × Int → Prop)
    (h : ∀ c ∈ cs, ∃ b, isPoint im nodata f t c = some b ∧ (b = true ↔ P c)) :
    ∃ l, select im nodata f t cs = some l ∧ l.Sublist cs ∧ ∀ c, c ∈ l ↔ c ∈ cs ∧ P c := by
  induction cs with
  | nil => exact ⟨[], rfl, List.Sublist.refl _, by simp⟩
  | cons c cs ih =>
    obtain ⟨l, hl, hs, hm⟩ := ih (fun d hd => h d (List.mem_cons_of_mem _ hd))
    obtain ⟨b, hb, hP⟩ := h c List.mem_cons_self
    refine ⟨if b then c :: l else l, by rw [select, hb, hl], ?_, ?_⟩
    · cases b
      · exact hs.cons c
      · exact hs.cons_cons c
    · intro d
      cases b
      · simp only [Bool.false_eq_true, if_false, hm, List.mem_cons]
        constructor
        · rintro ⟨h1, h2⟩; exact ⟨Or.inr h1, h2⟩
        · rintro ⟨rfl | h1, h2⟩
          · exact absurd (hP.2 h2) (by simp)
          · exact ⟨h1, h2⟩
      · simp only [if_true, hm, List.mem_cons]
        constructor
        · rintro (rfl | ⟨h1, h2⟩)
          · exact ⟨Or.inl rfl, hP.1 rfl⟩
          · exact ⟨Or.inr h1, h2⟩
        · rintro ⟨rfl | h1, h2⟩
          · exact Or.inl rfl
          · exact Or.inr ⟨h1, h2⟩

theorem search_eq (N : ℚ → Nat) (enough : Nat) (k : Nat) (m : ℚ) :
    ∃ j, 1 ≤ j ∧ j ≤ k + 1 ∧ search (fun l => some (N l)) enough (k + 1) m = some (m / 2 ^ j) ∧
      (∀ i, i + 1 < j → N (m / 2 ^ i) < enough) ∧ (j = k + 1 ∨ enough ≤ N (m / 2 ^ (j - 1))) := by
  induction k generalizing m with
  | zero =>
    refine ⟨1, le_refl _, le_refl _, ?_, fun i hi => by omega, Or.inl rfl⟩
    unfold search
    dsimp only
    split <;> simp [search]
  | succ k ih =>
    rw [search]
    by_cases h : N m < enough
    · obtain ⟨j, h1, h2, h3, h4, h5⟩ := ih (m / 2)
      have e : ∀ i : Nat, m / 2 / 2 ^ i = m / 2 ^ (i + 1) := fun i => by
        rw [div_div, pow_succ, mul_comm]
      refine ⟨j + 1, by omega, by omega, ?_, ?_, ?_⟩
      · dsimp only
        rw [if_pos h, h3, e]
      · intro i hi
        cases i with
        | zero => simpa using h
        | succ i => rw [← e]; exact h4 i (by omega)
      · rcases h5 with h5 | h5
        · left; omega
        · right
          rw [e, show j - 1 + 1 = j + 1 - 1 by omega] at h5
          exact h5
    · refine ⟨1, le_refl _, by omega, ?_, fun i hi => by omega, Or.inr (by simpa using h)⟩
      dsimp only
      rw [if_neg h, pow_one]

/-- What the search finds, with the lists of points for every limit. -/
theorem poi_eq (target base : Img) (nodata : Int) (smaller : Bool) (f : Fields) (enough : Nat)
    (hn : nodata ≤ 0) (hx : base.nx = target.nx) (hy : base.ny = target.ny) :
    ∃ P : ℚ → List (Int × Int), (∀ t, (P t).Nodup ∧ ∀ c, c ∈ P t ↔ Spec.Corner target base f t c) ∧
    ∃ j, 1 ≤ j ∧ j ≤ 10 ∧
      pointsOfInterest target base nodata smaller f enough = some (P (f.mean / 2 ^ j)) ∧
      ((∃ c t, Spec.Corner target base f t c) → (∀ i, i + 1 < j → (P (f.mean / 2 ^ i)).length < enough) ∧
        (j = 10 ∨ enough ≤ (P (f.mean / 2 ^ (j - 1))).length)) ∧
      ((¬ ∃ c t, Spec.Corner target base f t c) → enough = 0 → j = 1) := by
  have hX : (applyMask (if smaller then target else base) (mask target base) nodata).nx = target.nx := by
    unfold applyMask; cases smaller <;> simp [hx]
  have hY : (applyMask (if smaller then target else base) (mask target base) nodata).ny = target.ny := by
    unfold applyMask; cases smaller <;> simp [hy]
  have hsel : ∀ t, ∃ l, select (applyMask (if smaller then target else base) (mask target base) nodata) nodata f t
      (cells (applyMask (if smaller then target else base) (mask target base) nodata)) = some l ∧
      l.Nodup ∧ ∀ c, c ∈ l ↔ Spec.Corner target base f t c := by
    intro t
    obtain ⟨l, h1, h2, h3⟩ := select_eq (applyMask (if smaller then target else base) (mask target base) nodata)
      nodata f t (cells (applyMask (if smaller then target else base) (mask target base) nodata))
      (Spec.Corner target base f t) (fun c hc => by
        rw [mem_cells, hX, hY] at hc
        exact isPoint_eq target base nodata smaller f t hn hx hy c hc)
    refine ⟨l, h1, h2.nodup (nodup_cells _), fun c => ?_⟩
    rw [h3, mem_cells, hX, hY]
    refine ⟨fun h => h.2, fun h => ⟨⟨h.1, h.2.1, h.2.2.1, h.2.2.2.1⟩, h⟩⟩
  choose P hP using hsel
  refine ⟨P, fun t => (hP t).2, ?_⟩
  unfold pointsOfInterest
  dsimp only
  split
  · rename_i hall
    have hno : ¬ ∃ c t, Spec.Corner target base f t c := by
      rintro ⟨c, t, h1, h2, h3, h4, h5, _⟩
      simp only [Bool.not_eq_true', List.any_eq_false] at hall
      have hm := hall c (by
        simp only [List.mem_flatMap, List.mem_map, List.mem_range]
        refine ⟨c.2.toNat, by omega, c.1.toNat, by omega, ?_⟩
        ext <;> dsimp only <;> omega)
      have := h5 0 0 (by simp) (by simp)
      simp only [add_zero] at this
      exact hm (by unfold mask; simpa using this)
    refine ⟨1, le_refl _, by omega, ?_, fun h => absurd h hno, fun _ _ => rfl⟩
    have : P (f.mean / 2 ^ 1) = [] := by
      rw [List.eq_nil_iff_forall_not_mem]
      intro c hc
      exact hno ⟨c, _, ((hP _).2.2 c).1 hc⟩
    rw [this]
  · have e : (fun l => (select (applyMask (if smaller then target else base) (mask target base) nodata) nodata f l
        (cells (applyMask (if smaller then target else base) (mask target base) nodata))).map List.length) =
        fun l => some (P l).length := by
      funext l
      rw [(hP l).1]; rfl
    obtain ⟨j, h1, h2, h3, h4, h5⟩ := search_eq (fun l => (P l).length) enough 9 f.mean
    refine ⟨j, h1, h2, ?_, fun _ => ⟨h4, h5⟩, ?_⟩
    · rw [e, h3]
      exact (hP _).1
    · intro _ h0
      by_contra hne
      have := h4 0 (by omega)
      omega

/-! ## C271 -/

/-- C271: for every pair of images of the same size and all results of the filters, the search for points
of interest reads inside of the arrays, and finds each pixel at most once. Every point is at least 7 pixels
away from the border, and both images are valid in the whole window of 15 x 15 pixels around it. The points
are exactly the corners whose strength exceeds the mean, halved between once and ten times. -/
theorem c271_points (target base : Img) (nodata : Int) (smaller : Bool) (f : Fields) (enough : Nat)
    (hn : nodata ≤ 0) (hx : base.nx = target.nx) (hy : base.ny = target.ny) :
    ∃ l k, pointsOfInterest target base nodata smaller f enough = some l ∧ l.Nodup ∧ 1 ≤ k ∧ k ≤ 10 ∧
      ∀ c, c ∈ l ↔ Spec.Corner target base f (f.mean / 2 ^ k) c := by
  obtain ⟨P, hP, j, h1, h2, h3, _⟩ := poi_eq target base nodata smaller f enough hn hx hy
  exact ⟨_, j, h3, (hP _).1, h1, h2, (hP _).2⟩

/-- C271: the limit is not lowered further than needed: it is the mean halved once more often than needed
to have enough corners. -/
theorem c271_limit (target base : Img) (nodata : Int) (smaller : Bool) (f : Fields) (enough k : Nat)
    (hn : nodata ≤ 0) (hx : base.nx = target.nx) (hy : base.ny = target.ny) (hk : k < 9)
    (L : List (Int × Int)) (hL : L.Nodup) (hc : ∀ c, c ∈ L ↔ Spec.Corner target base f (f.mean / 2 ^ k) c)
    (he : enough ≤ L.length)
    (hfew : ∀ i < k, ∀ M : List (Int × Int), M.Nodup →
      (∀ c ∈ M, Spec.Corner target base f (f.mean / 2 ^ i) c) → M.length < enough) :
    ∃ l, pointsOfInterest target base nodata smaller f enough = some l ∧
      ∀ c, c ∈ l ↔ Spec.Corner target base f (f.mean / 2 ^ (k + 1)) c := by
  obtain ⟨P, hP, j, h1, h2, h3, h4, h5⟩ := poi_eq target base nodata smaller f enough hn hx hy
  refine ⟨_, h3, ?_⟩
  have hlen : ∀ i, i = k → (P (f.mean / 2 ^ i)).length = L.length := by
    rintro i rfl
    refine List.Perm.length_eq ?_
    rw [List.perm_ext_iff_of_nodup (hP _).1 hL]
    intro c
    rw [(hP _).2, hc]
  have hjk : j = k + 1 := by
    by_cases hex : ∃ c t, Spec.Corner target base f t c
    · obtain ⟨h4, h6⟩ := h4 hex
      rcases Nat.lt_trichotomy j (k + 1) with h | h | h
      · rcases h6 with h6 | h6
        · omega
        · have := hfew (j - 1) (by omega) _ (hP _).1 (fun c hc => ((hP _).2 c).1 hc)
          omega
      · exact h
      · have := h4 k (by omega)
        rw [hlen k rfl] at this
        omega
    · have hnil : L = [] := by
        rw [List.eq_nil_iff_forall_not_mem]
        intro c h
        exact hex ⟨c, _, (hc c).1 h⟩
      rw [hnil] at he
      have h0 : enough = 0 := by simpa using he
      cases k with
      | zero => exact h5 hex h0
      | succ k =>
        have := hfew 0 (by omega) [] List.nodup_nil (by simp)
        omega
  intro c
  rw [hjk] at h3 ⊢
  exact (hP _).2 c

/-- C271: if there are enough corners whose strength exceeds 1/512 of the mean, at least that many points
are found. -/
theorem c271_enough (target base : Img) (nodata : Int) (smaller : Bool) (f : Fields) (enough : Nat)
    (hn : nodata ≤ 0) (hx : base.nx = target.nx) (hy : base.ny = target.ny) (hm : 0 ≤ f.mean)
    (L : List (Int × Int)) (hL : L.Nodup) (hc : ∀ c ∈ L, Spec.Corner target base f (f.mean / 512) c)
    (he : enough ≤ L.length) :
    ∃ l, pointsOfInterest target base nodata smaller f enough = some l ∧ enough ≤ l.length := by
  obtain ⟨P, hP, j, h1, h2, h3, h4, _⟩ := poi_eq target base nodata smaller f enough hn hx hy
  refine ⟨_, h3, ?_⟩
  have mono : ∀ s t : ℚ, s ≤ t → ∀ c, Spec.Corner target base f t c → Spec.Corner target base f s c := by
    rintro s t hst c ⟨a1, a2, a3, a4, a5, a6, a7, a8, a9, a10⟩
    exact ⟨a1, a2, a3, a4, a5, a6, a7, a8, a9, lt_of_le_of_lt hst a10⟩
  have sub : ∀ (M : List (Int × Int)) (s : ℚ), M.Nodup → (∀ c ∈ M, Spec.Corner target base f s c) →
      M.length ≤ (P s).length := by
    intro M s hM hs
    exact (hM.subperm (fun c hc => ((hP s).2 c).2 (hs c hc))).length_le
  rcases L with _ | ⟨c0, L⟩
  · have : enough = 0 := by simpa using he
    omega
  · obtain ⟨h4, h6⟩ := h4 ⟨c0, _, hc c0 List.mem_cons_self⟩
    rcases h6 with h6 | h6
    · refine he.trans (sub _ _ hL fun c h => mono _ _ ?_ c (hc c h))
      rw [h6]
      norm_num
      linarith
    · refine h6.trans (sub _ _ (hP _).1 fun c h => mono _ _ ?_ c (((hP _).2 c).1 h))
      obtain ⟨i, rfl⟩ : ∃ i, j = i + 1 := ⟨j - 1, by omega⟩
      rw [Nat.add_sub_cancel, pow_succ, ← div_div]
      have : (0 : ℚ) ≤ f.mean / 2 ^ i := by positivity
      linarith

/-- Two images of 16 x 16 pixels with one corner. -/
def exImg : Img := ⟨16, 16, fun _ _ => 1500⟩

def exFields : Fields :=
  ⟨fun j _ => if j ≤ 7 then 1 else -1, fun _ i => if i ≤ 8 then 1 else -1, fun _ _ => 3, 20⟩

set_option maxRecDepth 100000 in
/-- The corner is found; its strength needs the limit to be halved three times. -/
example : pointsOfInterest exImg exImg (-9999) true exFields 1 = some [(7, 8)] := by decide +kernel

example : Spec.Corner exImg exImg exFields (20 / 2 ^ 3) (7, 8) := by
  refine ⟨by norm_num, by norm_num [exImg], by norm_num, by norm_num [exImg], fun a b _ _ => ?_, ?_⟩
  · norm_num [exImg]
  · norm_num [exFields]

end Verif.Match
