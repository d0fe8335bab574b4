import Mathlib.Tactic.NormNum
import Mathlib.Tactic.Linarith
import Mathlib.Data.List.Basic
import Verif.Coreg.Model

namespace Verif.Coreg

/-! ### Attempts -/

/-- C228: whatever the matching finds, at most three attempts are made: with threshold 0.99 on the fourth layer
of the pyramid, then with 0.99 and with 0.985 on the third one. The first attempt that yields twelve tie
points ends the search; if none does, the search fails. -/
theorem c228_attempts (found : ℚ → Nat → Nat) (fuel : Nat) (hf : 3 ≤ fuel) :
    attempts found fuel (99 / 100) 3 =
      [((99 / 100 : ℚ), 3), (99 / 100, 2), (985 / 1000, 2)].find? (fun a => decide (12 ≤ found a.1 a.2)) := by
  obtain ⟨f, rfl⟩ : ∃ f, fuel = f + 3 := ⟨fuel - 3, by omega⟩
  have n1 : ((99 / 100 : ℚ) - 5 / 1000 ≥ 985 / 1000) := by norm_num
  have n2 : |(99 / 100 : ℚ) - 5 / 1000 - 985 / 1000| ≤ 1 / 10000 := by norm_num
  have n3 : (99 / 100 : ℚ) - 5 / 1000 = 985 / 1000 := by norm_num
  have n4 : ¬ ((985 / 1000 : ℚ) - 5 / 1000 ≥ 985 / 1000) := by norm_num
  by_cases h1 : 12 ≤ found (99 / 100) 3
  · rw [attempts, if_pos (show found (99 / 100) 3 ≥ minTies from h1), List.find?_cons_of_pos (by simpa using h1)]
  · rw [attempts, if_neg (show ¬ found (99 / 100) 3 ≥ minTies from h1), if_pos n1]
    dsimp only
    rw [if_pos ⟨n2, by omega⟩, List.find?_cons_of_neg (by simpa using h1)]
    by_cases h2 : 12 ≤ found (99 / 100) 2
    · rw [attempts, if_pos (show found (99 / 100) 2 ≥ minTies from h2), List.find?_cons_of_pos (by simpa using h2)]
    · rw [attempts, if_neg (show ¬ found (99 / 100) 2 ≥ minTies from h2), if_pos n1]
      dsimp only
      rw [if_neg (by rintro ⟨-, h⟩; omega), n3, List.find?_cons_of_neg (by simpa using h2)]
      by_cases h3 : 12 ≤ found (985 / 1000) 2
      · rw [attempts, if_pos (show found (985 / 1000) 2 ≥ minTies from h3), List.find?_cons_of_pos (by simpa using h3)]
      · rw [attempts, if_neg (show ¬ found (985 / 1000) 2 ≥ minTies from h3), if_neg n4,
          List.find?_cons_of_neg (by simpa using h3)]
        rfl

/-! ### Outliers -/

/-- Is the squared residual acceptable? -/
def keep (err2 : ℚ) (v : Tie × ℚ) : Bool := decide (v.2 ≤ 4 * err2)

theorem eraseIdx_append_at {α : Type} (a : List α) (x : α) (b : List α) :
    (a ++ x :: b).eraseIdx a.length = a ++ b := by
  rw [List.eraseIdx_append_of_length_le (le_refl _), Nat.sub_self]
  rfl

/-- The array is: what was looked at and kept, what is still to be looked at, and the removed places. -/
theorem remove_inv (err2 : ℚ) (total : Nat) :
    ∀ (fuel : Nat) (kept todo : List (Tie × ℚ)) (nout : Nat),
      kept.length + todo.length + nout = total → todo.length < fuel →
      removeOutliers err2 total fuel kept.length nout
          ((kept ++ todo).map some ++ List.replicate nout none) =
        ((kept ++ todo.filter (keep err2)).map some ++
          List.replicate (nout + (todo.length - (todo.filter (keep err2)).length)) none,
          nout + (todo.length - (todo.filter (keep err2)).length)) := by
  intro fuel
  induction fuel with
  | zero => intro kept todo nout _ h; omega
  | succ fuel ih =>
    intro kept todo nout ht hf
    unfold removeOutliers
    cases todo with
    | nil =>
      simp only [List.length_nil, Nat.add_zero, List.append_nil, List.filter_nil, Nat.sub_self] at ht ⊢
      by_cases hlt : kept.length < total
      · rw [if_pos hlt]
        have : (kept.map some ++ List.replicate nout none).getD kept.length none = none := by
          rw [List.getD_eq_getElem?_getD, List.getElem?_append_right (by rw [List.length_map]), List.length_map,
            Nat.sub_self]
          cases nout <;> simp [List.replicate]
        rw [this]
      · rw [if_neg hlt]
    | cons v todo =>
      simp only [List.length_cons] at ht hf
      rw [if_pos (by omega)]
      have hget : ((kept ++ v :: todo).map some ++ List.replicate nout none).getD kept.length none = some v := by
        rw [List.getD_eq_getElem?_getD, List.getElem?_append_left (by simp), List.map_append, List.map_cons,
          List.getElem?_append_right (by rw [List.length_map]), List.length_map, Nat.sub_self]
        rfl
      rw [hget]
      obtain ⟨t, r2⟩ := v
      dsimp only
      by_cases hr : r2 > 2 ^ 2 * err2
      · rw [if_pos hr]
        have hk : keep err2 (t, r2) = false := by
          unfold keep; rw [decide_eq_false_iff_not, not_le]; norm_num at hr; exact hr
        have hlen : ((kept ++ (t, r2) :: todo).map some).length = total - nout := by
          rw [List.length_map, List.length_append, List.length_cons]; omega
        rw [List.take_append_of_le_length (by omega), List.take_of_length_le (by omega), List.drop_append,
          List.drop_of_length_le (by omega), hlen, Nat.sub_self, List.drop_zero, List.nil_append]
        have he : ((kept ++ (t, r2) :: todo).map some).eraseIdx kept.length = (kept ++ todo).map some := by
          rw [List.map_append, List.map_cons]
          have := eraseIdx_append_at (kept.map some) (some (t, r2)) (todo.map some)
          rw [List.length_map] at this
          rw [this, List.map_append]
        rw [he, show (none : Option (Tie × ℚ)) :: List.replicate nout none = List.replicate (nout + 1) none from rfl,
          ih kept todo (nout + 1) (by omega) (by omega), List.filter_cons_of_neg (by rw [hk]; simp)]
        have hle := List.length_filter_le (keep err2) todo
        rw [List.length_cons, show nout + 1 + (todo.length - (todo.filter (keep err2)).length) =
          nout + (todo.length + 1 - (todo.filter (keep err2)).length) by omega]
      · rw [if_neg hr]
        have hk : keep err2 (t, r2) = true := by
          unfold keep; rw [decide_eq_true_iff]; norm_num at hr; exact hr
        have := ih (kept ++ [(t, r2)]) todo nout (by rw [List.length_append, List.length_singleton]; omega) (by omega)
        rw [List.length_append, List.length_singleton, List.append_assoc, List.singleton_append, List.append_assoc,
          List.singleton_append] at this
        rw [this, List.filter_cons_of_pos hk, List.length_cons, List.length_cons, Nat.add_sub_add_right]

theorem inliers_eq (ties : List Tie) (f : Fitted) (hl : f.res2.length = ties.length) :
    inliers ties f = ((ties.zip f.res2).filter (keep f.err2)).map Prod.fst := by
  have hz : (ties.zip f.res2).length = ties.length := by rw [List.length_zip]; omega
  have := remove_inv f.err2 ties.length (2 * ties.length + 1) [] (ties.zip f.res2) 0
    (by simp only [List.length_nil]; omega) (by omega)
  simp only [List.nil_append, List.replicate_zero, List.append_nil, List.length_nil, Nat.zero_add] at this
  unfold inliers
  dsimp only
  rw [this]
  dsimp only
  have hle := List.length_filter_le (keep f.err2) (ties.zip f.res2)
  rw [List.take_append_of_le_length (by rw [List.length_map]; omega), List.take_of_length_le (by rw [List.length_map]; omega),
    List.filterMap_map]
  have : (Option.map Prod.fst ∘ some : Tie × ℚ → Option Tie) = fun v => some v.1 := rfl
  rw [this, ← List.filterMap_eq_map]
  rfl

/-- C227: after a fit, exactly the tie points are kept whose squared residual is at most four times the squared
root mean squared error, in their order. -/
theorem c227_kept (ties : List Tie) (c : Vec) (k : Kind) (err2 : ℚ) :
    inliers ties ⟨c, ties.map (resid2 k c), err2⟩ = ties.filter (fun t => decide (resid2 k c t ≤ 4 * err2)) := by
  rw [inliers_eq _ _ (by simp)]
  dsimp only
  induction ties with
  | nil => rfl
  | cons t ties ih =>
    rw [List.map_cons, List.zip_cons_cons]
    by_cases h : resid2 k c t ≤ 4 * err2
    · rw [List.filter_cons_of_pos (by simpa [keep] using h), List.filter_cons_of_pos (by simpa using h), List.map_cons, ih]
    · rw [List.filter_cons_of_neg (by simpa [keep] using h), List.filter_cons_of_neg (by simpa using h), ih]

theorem resid2_nonneg (k : Kind) (c : Vec) (t : Tie) : 0 ≤ resid2 k c t := by
  unfold resid2
  dsimp only
  exact add_nonneg (sq_nonneg _) (sq_nonneg _)

theorem sum_filter_le (ties : List Tie) (g : Tie → ℚ) (hg : ∀ t, 0 ≤ g t) (b : ℚ) :
    ((ties.length : ℚ) - (ties.filter (fun t => decide (g t ≤ b))).length) * b ≤ (ties.map g).sum := by
  induction ties with
  | nil => simp
  | cons t ties ih =>
    rw [List.map_cons, List.sum_cons]
    by_cases h : g t ≤ b
    · rw [List.filter_cons_of_pos (by simpa using h)]
      push_cast [List.length_cons]
      have := hg t
      linarith
    · rw [List.filter_cons_of_neg (by simpa using h)]
      push_cast [List.length_cons]
      linarith

/-- C227: of `n` tie points that a transformation with `t` coefficients was fitted to, at most `(n - t) / 4` are
removed, provided that the fit is not perfect. -/
theorem c227_removed (ties : List Tie) (c : Vec) (k : Kind) (hn : k.size < ties.length)
    (hne : ∃ t ∈ ties, 0 < resid2 k c t) :
    4 * (ties.length - (inliers ties ⟨c, ties.map (resid2 k c), rmse2 k.size (ties.map (resid2 k c))⟩).length) ≤
      ties.length - k.size := by
  rw [c227_kept]
  have hs : rmse2 k.size (ties.map (resid2 k c)) = (ties.map (resid2 k c)).sum / ((ties.length - k.size : Nat) : ℚ) := by
    unfold rmse2
    rw [List.length_map, if_neg (by omega)]
  have hd : (0 : ℚ) < ((ties.length - k.size : Nat) : ℚ) := by exact_mod_cast (by omega : 0 < ties.length - k.size)
  have hpos : 0 < (ties.map (resid2 k c)).sum := by
    obtain ⟨t, ht, h0⟩ := hne
    clear hn hs hd
    induction ties with
    | nil => cases ht
    | cons u ties ih =>
      rw [List.map_cons, List.sum_cons]
      have hnn : 0 ≤ (ties.map (resid2 k c)).sum := List.sum_nonneg (by
        intro x hx; obtain ⟨v, -, rfl⟩ := List.mem_map.1 hx; exact resid2_nonneg k c v)
      rcases List.mem_cons.1 ht with rfl | ht
      · linarith
      · have := ih ht
        have := resid2_nonneg k c u
        linarith
  have hle := sum_filter_le ties (resid2 k c) (resid2_nonneg k c) (4 * rmse2 k.size (ties.map (resid2 k c)))
  have hlen : (ties.filter (fun t => decide (resid2 k c t ≤ 4 * rmse2 k.size (ties.map (resid2 k c))))).length ≤
    ties.length := List.length_filter_le _ _
  generalize (ties.filter (fun t => decide (resid2 k c t ≤ 4 * rmse2 k.size (ties.map (resid2 k c))))).length = m at *
  rw [hs] at hle
  have h2 : ((ties.length : ℚ) - m) * 4 ≤ ((ties.length - k.size : Nat) : ℚ) := by
    have e : ((ties.length : ℚ) - m) * (4 * ((ties.map (resid2 k c)).sum / ((ties.length - k.size : Nat) : ℚ))) =
        (((ties.length : ℚ) - m) * 4) * (ties.map (resid2 k c)).sum / ((ties.length - k.size : Nat) : ℚ) := by ring
    rw [e, div_le_iff₀ hd] at hle
    exact le_of_mul_le_mul_right (by linarith) hpos
  have h3 : ((4 * (ties.length - m) : Nat) : ℚ) ≤ ((ties.length - k.size : Nat) : ℚ) := by
    push_cast [Nat.cast_sub hlen]
    push_cast at h2
    linarith
  exact_mod_cast h3

/-- C227: if all residuals vanish, no tie point is removed. -/
theorem c227_perfect (ties : List Tie) (c : Vec) (k : Kind) (h0 : ∀ t ∈ ties, resid2 k c t = 0) (err2 : ℚ) (he : 0 ≤ err2) :
    inliers ties ⟨c, ties.map (resid2 k c), err2⟩ = ties := by
  rw [c227_kept, List.filter_eq_self]
  intro t ht
  rw [h0 t ht]
  simp [he]

/-- C227: the kind of transformation follows from the number of tie points, so that at least three tie
points are there for every two coefficients of an affine transformation or a polynomial. -/
theorem c227_choice (n : Nat) :
    ((chooseTransform n).size = 12 ↔ 37 ≤ n) ∧ ((chooseTransform n).size = 6 ↔ 19 ≤ n ∧ n ≤ 36) ∧
    ((chooseTransform n).size = 2 ↔ n ≤ 18) := by
  unfold chooseTransform
  split
  · simp [Kind.size]; omega
  · split
    · simp [Kind.size]; omega
    · simp [Kind.size]; omega

theorem choose_size {n : Nat} (hn : 2 ≤ n) : (chooseTransform n).size ≤ n := by
  unfold chooseTransform
  split
  · simp only [Kind.size]; omega
  · split
    · simp only [Kind.size]; omega
    · simp only [Kind.size]; omega

/-- C227: the transformation of the depth-first matching is fitted to those of two or more tie points that are
within twice the error of a first fit to all of them; the kind of the second fit follows from the number of
tie points that are left, which is the number reported. -/
theorem c227_refit (ties left : List Tie) (hn : 2 ≤ ties.length) (k k' : Kind) (hk : k = chooseTransform ties.length)
    (c : Vec) (hc : c = coefficients k ties (fun _ => 0))
    (hl : left = ties.filter (fun t => decide (resid2 k c t ≤ 4 * rmse2 k.size (ties.map (resid2 k c)))))
    (hk' : k' = chooseTransform left.length) :
    transformFromDf ties = (k', coefficients k' left c, left.length) := by
  have hf : fit k ties (fun _ => 0) = ⟨c, ties.map (resid2 k c), rmse2 k.size (ties.map (resid2 k c))⟩ := by
    unfold fit
    dsimp only
    rw [if_neg (by rw [hk]; have := choose_size hn; omega), ← hc]
  unfold transformFromDf
  rw [if_neg (by omega)]
  dsimp only
  rw [← hk, hf, c227_kept, ← hl, ← hk']
  have : (fit k' left c).coefs = coefficients k' left c := by
    unfold fit
    dsimp only
    split <;> rfl
  dsimp only
  rw [this]

/-- C227: the transformation of the dense matching, with twelve or more tie points of which twelve or more are
left, is fitted to those that are within twice the error of a first fit. -/
theorem c227_refit_dense (ties left : List Tie) (k : Kind) (hn : 12 ≤ ties.length) (c : Vec)
    (hc : c = coefficients k ties (fun _ => 0))
    (hl : left = ties.filter (fun t => decide (resid2 k c t ≤ 4 * rmse2 k.size (ties.map (resid2 k c)))))
    (hleft : 12 ≤ left.length) :
    transformFromDm k ties = (coefficients k left c, left.length) := by
  have hf : fit k ties (fun _ => 0) = ⟨c, ties.map (resid2 k c), rmse2 k.size (ties.map (resid2 k c))⟩ := by
    unfold fit
    dsimp only
    rw [if_neg (by have : k.size ≤ 12 := by cases k <;> simp [Kind.size]
                   omega), ← hc]
  unfold transformFromDm
  rw [if_neg (by unfold minTies; omega)]
  dsimp only
  rw [hf, c227_kept, ← hl, if_neg (by unfold minTies; omega)]
  have : (fit k left c).coefs = coefficients k left c := by
    unfold fit
    dsimp only
    split <;> rfl
  dsimp only
  rw [this]

/-! ### The base image -/

theorem findStarts_eq (dir : List Char) (names : List (List Char)) (pattern : List Char)
    (hlen : ∀ n ∈ names, dir.length + n.length + 2 ≤ 1024) :
    findStarts dir names pattern 1024 =
      (names.find? (fun n => pattern.isPrefixOf n)).map (fun n => dir ++ '/' :: n) := by
  unfold findStarts
  cases h : names.find? (fun n => pattern.isPrefixOf n) with
  | none => rfl
  | some n =>
    have := hlen n (List.mem_of_find?_eq_some h)
    simp only [Option.map_some]
    rw [if_neg (by omega)]

theorem findBase_spec (dir : List Char) (names : List (List Char)) (year : Int)
    (hlen : ∀ n ∈ names, dir.length + n.length + 2 ≤ 1024) (fuel dy : Nat) :
    match findBase dir names year fuel dy with
    | none => ∀ d, dy ≤ d → d < dy + fuel → ∀ n ∈ names, ¬ Verif.Libc.fmtInt0 4 (year - d) <+: n
    | some f => ∃ d, dy ≤ d ∧ d < dy + fuel ∧
        (∀ d', dy ≤ d' → d' < d → ∀ n ∈ names, ¬ Verif.Libc.fmtInt0 4 (year - d') <+: n) ∧
        ∃ n, names.find? (fun n => (Verif.Libc.fmtInt0 4 (year - d)).isPrefixOf n) = some n ∧ f = dir ++ '/' :: n := by
  induction fuel generalizing dy with
  | zero => intro d h1 h2; omega
  | succ fuel ih =>
    unfold findBase
    rw [findStarts_eq _ _ _ hlen]
    cases h : names.find? (fun n => (Verif.Libc.fmtInt0 4 (year - dy)).isPrefixOf n) with
    | some n =>
      exact ⟨dy, le_refl _, by omega, fun d' h1 h2 => by omega, n, h, rfl⟩
    | none =>
      have hno : ∀ n ∈ names, ¬ Verif.Libc.fmtInt0 4 (year - dy) <+: n := by
        intro n hn hp
        have := List.find?_eq_none.1 h n hn
        exact this (List.isPrefixOf_iff_prefix.2 hp)
      have := ih (dy + 1)
      simp only [Option.map_none]
      cases hb : findBase dir names year fuel (dy + 1) with
      | none =>
        rw [hb] at this
        intro d h1 h2
        by_cases e : d = dy
        · rw [e]; exact hno
        · exact this d (by omega) (by omega)
      | some f =>
        rw [hb] at this
        obtain ⟨d, h1, h2, h3, h4⟩ := this
        refine ⟨d, by omega, by omega, fun d' h5 h6 => ?_, h4⟩
        by_cases e : d' = dy
        · rw [e]; exact hno
        · exact h3 d' (by omega) h6

/-- C231: if a base image is found, it is a file whose name starts with the four digits of the most recent year
that is not after the year of acquisition and for which there is such a file, at most 49 years back; the
band is the month of acquisition, counted from zero. File names are assumed to fit into the buffer. -/
theorem c231_base {dir : List Char} {names : List (List Char)} {year month : Int} {f : List Char} {b : Int}
    (hlen : ∀ n ∈ names, dir.length + n.length + 2 ≤ 1024)
    (h : baseImage dir names year month = some (f, b)) :
    b = month - 1 ∧ ∃ y : Int, year - 49 ≤ y ∧ y ≤ year ∧
      (∃ n ∈ names, Verif.Libc.fmtInt0 4 y <+: n ∧ f = dir ++ '/' :: n) ∧
      ∀ y', y < y' → y' ≤ year → ∀ n ∈ names, ¬ Verif.Libc.fmtInt0 4 y' <+: n := by
  unfold baseImage at h
  obtain ⟨g, hg, he⟩ := Option.map_eq_some_iff.1 h
  obtain ⟨rfl, rfl⟩ := Prod.mk.inj he
  have := findBase_spec dir names year hlen 50 0
  rw [hg] at this
  obtain ⟨d, -, h2, h3, n, hn, rfl⟩ := this
  refine ⟨rfl, year - d, by omega, by omega, ⟨n, List.mem_of_find?_eq_some hn, ?_, rfl⟩, ?_⟩
  · have := List.find?_some hn
    exact List.isPrefixOf_iff_prefix.1 this
  · intro y' h5 h6
    have := h3 (year - y').toNat (by omega) (by omega)
    rwa [show year - ((year - y').toNat : Int) = y' by omega] at this

/-- C231: no base image is found exactly if there is no file for the year of acquisition or one of the 49 years
before. -/
theorem c231_none {dir : List Char} {names : List (List Char)} {year month : Int}
    (hlen : ∀ n ∈ names, dir.length + n.length + 2 ≤ 1024) :
    baseImage dir names year month = none ↔
      ∀ y : Int, year - 49 ≤ y → y ≤ year → ∀ n ∈ names, ¬ Verif.Libc.fmtInt0 4 y <+: n := by
  have key := findBase_spec dir names year hlen 50 0
  unfold baseImage
  rw [Option.map_eq_none_iff]
  constructor
  · intro h
    rw [h] at key
    intro y h1 h2
    have := key (year - y).toNat (by omega) (by omega)
    rwa [show year - ((year - y).toNat : Int) = y by omega] at this
  · intro h
    cases hb : findBase dir names year 50 0 with
    | none => rfl
    | some f =>
      rw [hb] at key
      obtain ⟨d, -, h2, -, n, hn, -⟩ := key
      exact absurd (List.isPrefixOf_iff_prefix.1 (List.find?_some hn))
        (h (year - d) (by omega) (by omega) n (List.mem_of_find?_eq_some hn))

/-- C231, violated: with two files for the same year, the order of the directory decides which one is used,
for instance a side-car file instead of the image. -/
theorem c231_order_violated (dir n1 n2 : List Char) (year month : Int) (hne : n1 ≠ n2)
    (h1 : Verif.Libc.fmtInt0 4 year <+: n1) (h2 : Verif.Libc.fmtInt0 4 year <+: n2)
    (hl1 : dir.length + n1.length + 2 ≤ 1024) (hl2 : dir.length + n2.length + 2 ≤ 1024) :
    baseImage dir [n1, n2] year month = some (dir ++ '/' :: n1, month - 1) ∧
    baseImage dir [n2, n1] year month = some (dir ++ '/' :: n2, month - 1) ∧
    dir ++ '/' :: n1 ≠ dir ++ '/' :: n2 := by
  have p1 := List.isPrefixOf_iff_prefix.2 h1
  have p2 := List.isPrefixOf_iff_prefix.2 h2
  have e : year - ((0 : Nat) : Int) = year := by omega
  refine ⟨?_, ?_, ?_⟩
  · unfold baseImage findBase
    rw [findStarts_eq _ _ _ (by simp; omega), e, List.find?_cons_of_pos p1]
    rfl
  · unfold baseImage findBase
    rw [findStarts_eq _ _ _ (by simp; omega), e, List.find?_cons_of_pos p2]
    rfl
  · intro h
    exact hne (List.cons.inj (List.append_cancel_left h)).2

end Verif.Coreg
