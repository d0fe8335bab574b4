import Verif.Coreg.Fit
import Verif.Coreg.Pyramid
import Verif.Coreg.Register
import Verif.Coreg.Control

/-!
# C222, C223, C226, C227: images, residuals and degenerate tie points
-/

namespace Verif.Coreg

/-- C222: the pixels of an image are stored row by row. -/
theorem c222_rows (nx : Nat) (rows : List (List Int)) (h : ∀ r ∈ rows, r.length = nx) (j i : Nat) :
    Img.at ⟨nx, rows.length, rows.flatten⟩ j i = (rows[i]?).bind (fun r => r[j]?) := by
  unfold Img.at
  dsimp only
  have key : ∀ (rows : List (List Int)) (i : Nat), (∀ r ∈ rows, r.length = nx) → j < nx → (hi : i < rows.length) →
      rows.flatten.getD (i * nx + j) 0 = (rows[i]).getD j 0 := by
    intro rows
    induction rows with
    | nil => intro i _ _ hi; simp at hi
    | cons r rows ih =>
      intro i h hj hi
      have hr : r.length = nx := h r (by simp)
      rw [List.flatten_cons]
      cases i with
      | zero =>
        rw [List.getElem_cons_zero, Nat.zero_mul, Nat.zero_add, List.getD_eq_getElem?_getD, List.getD_eq_getElem?_getD,
          List.getElem?_append_left (by omega)]
      | succ i =>
        rw [List.getElem_cons_succ, ← ih i (fun r hr => h r (List.mem_cons_of_mem _ hr)) hj (by simpa using hi),
          List.getD_eq_getElem?_getD, List.getD_eq_getElem?_getD, Nat.succ_mul,
          List.getElem?_append_right (by omega)]
        congr 2; omega
  by_cases hi : i < rows.length
  · by_cases hj : j < nx
    · rw [if_pos (by omega), Int.toNat_natCast, Int.toNat_natCast, key rows i h hj hi, List.getElem?_eq_getElem hi]
      have hl := h _ (List.getElem_mem hi)
      show _ = (rows[i])[j]?
      rw [List.getD_eq_getElem?_getD, List.getElem?_eq_getElem (by omega)]
      rfl
    · rw [if_neg (by omega), List.getElem?_eq_getElem hi]
      have hl := h _ (List.getElem_mem hi)
      show _ = (rows[i])[j]?
      rw [List.getElem?_eq_none (by omega)]
  · rw [if_neg (by omega), List.getElem?_eq_none (by omega)]
    rfl

example : Img.at ⟨2, 2, [[1, 2], [3, 4]].flatten⟩ 1 0 = some 2 := by decide

/-- C222: the registered band has the size of the image, and row `i`, column `j` of it is what was computed for this
position. -/
theorem c222_band {k : Kind} {c : Vec} {im : Img} {nodata : Int} {out : List Int}
    (h : registerBand k c im nodata = .ok out) : out.length = im.nx * im.ny ∧
    ∀ j i, j < im.nx → i < im.ny → ∃ v, out[i * im.nx + j]? = some v ∧ registerPixel k c im nodata j i = .ok v := by
  obtain ⟨h1, h2⟩ := mapOut_get h
  rw [List.length_range] at h1
  refine ⟨h1, fun j i hj hi => ?_⟩
  have hlt : i * im.nx + j < im.nx * im.ny := index_lt rfl hi hj
  have e1 : (i * im.nx + j) % im.nx = j := by rw [Nat.add_comm, Nat.add_mul_mod_self_right, Nat.mod_eq_of_lt hj]
  have e2 : (i * im.nx + j) / im.nx = i := by
    rw [Nat.add_comm, Nat.add_mul_div_right _ _ (by omega), Nat.div_eq_of_lt hj, Nat.zero_add]
  have := h2 (i * im.nx + j) (by simpa using hlt) (by omega)
  rw [List.getElem_range, e1, e2] at this
  exact ⟨_, List.getElem?_eq_getElem (by omega), this⟩

/-- C223: the same for the quality band. -/
theorem c223_band (k : Kind) (c : Vec) (im : Img) (nodata : Int) :
    (registerQuality k c im nodata).length = im.nx * im.ny ∧
    ∀ j i, j < im.nx → i < im.ny → (registerQuality k c im nodata)[i * im.nx + j]? = some (qualityPixel k c im nodata j i) := by
  refine ⟨by simp [registerQuality], fun j i hj hi => ?_⟩
  have hlt : i * im.nx + j < im.nx * im.ny := index_lt rfl hi hj
  have e1 : (i * im.nx + j) % im.nx = j := by rw [Nat.add_comm, Nat.add_mul_mod_self_right, Nat.mod_eq_of_lt hj]
  have e2 : (i * im.nx + j) / im.nx = i := by
    rw [Nat.add_comm, Nat.add_mul_div_right _ _ (by omega), Nat.div_eq_of_lt hj, Nat.zero_add]
  rw [registerQuality, List.getElem?_map, List.getElem?_range hlt, Option.map_some, e1, e2]

/-- C227: the residual of a tie point is the distance between its transformed first and its second position; the error of
the fit is the sum of the squares, divided by the number of tie points that exceed the number of coefficients, and 9999
without redundancy. -/
theorem c227_error (k : Kind) (ties : List Tie) (old : Vec) (hn : k.size ≤ ties.length) :
    let f := fit k ties old
    f.res2 = ties.map (fun t => Spec.misfit (transformed k f.coefs) [(t.x1, t.y1, t.x2, t.y2)]) ∧
    (k.size < ties.length → f.err2 * ((ties.length : ℚ) - k.size) =
      Spec.misfit (transformed k f.coefs) (pts ties)) ∧
    (k.size = ties.length → f.err2 = 9999 ^ 2) := by
  intro f
  have e : f = ⟨coefficients k ties old, ties.map (resid2 k (coefficients k ties old)),
      rmse2 k.size (ties.map (resid2 k (coefficients k ties old)))⟩ := by
    show fit k ties old = _
    rw [fit]; dsimp only; rw [if_neg (by omega)]
  rw [e]
  dsimp only
  generalize coefficients k ties old = c
  refine ⟨?_, fun h => ?_, fun h => ?_⟩
  · apply List.map_congr_left
    intro t _
    simp [Spec.misfit, resid2]
  · rw [rmse2, if_neg (by simp; omega), List.length_map, Nat.cast_sub (by omega), div_mul_cancel₀]
    · rw [Spec.misfit, pts, List.map_map]; rfl
    · have : (k.size : ℚ) < ties.length := by exact_mod_cast h
      linarith
  · rw [rmse2, if_pos (by simp; omega)]

/-- C227: with fewer tie points than coefficients nothing is fitted. -/
theorem c227_few (k : Kind) (ties : List Tie) (old : Vec) (hn : ties.length < k.size) : (fit k ties old).coefs = old := by
  rw [fit]; dsimp only; rw [if_pos hn, coefficients, if_pos hn]

theorem degenerate (k : Kind) (ties : List Tie) (old y : Vec) (hn : k.size ≤ ties.length) (hy : ∃ j, j < k.size ∧ y j ≠ 0)
    (h : ∀ w ∈ ties.flatMap k.rows, dot k.size w.1 y = 0) :
    coefficients k ties old = fun i => if i < k.size then k.start i else old i := by
  unfold coefficients
  rw [if_neg (by omega), iterate]
  have : solve k.size (addN (ties.flatMap k.rows) fun _ _ => 0) (addU k.size (ties.flatMap k.rows)
      (fun i => if i < k.size then k.start i else old i) fun _ => 0) = none := by
    rw [c225_singular]
    refine ⟨y, hy, fun i hi => ?_⟩
    have e : ∀ rows : List (Vec × ℚ), (∀ w ∈ rows, dot k.size w.1 y = 0) →
        ∑ j ∈ Finset.range k.size, addN rows (fun _ _ => 0) i j * y j = 0 := by
      intro rows
      induction rows with
      | nil => intro _; simp [addN]
      | cons w rows ih =>
        intro hw
        have h1 := ih fun w hw' => hw w (List.mem_cons_of_mem _ hw')
        have h2 := hw w (by simp)
        rw [dot_eq] at h2
        have e2 : ∀ j, addN (w :: rows) (fun _ _ => 0) i j * y j = w.1 i * (w.1 j * y j) + addN rows (fun _ _ => 0) i j * y j := by
          intro j; simp only [addN, List.map_cons, List.sum_cons]; ring
        rw [Finset.sum_congr rfl fun j _ => e2 j, Finset.sum_add_distrib, h1, ← Finset.mul_sum, h2]
        ring
    exact e _ h
  rw [this]

/-- C226: tie points on one line do not determine an affine transformation; the image is left as it is. -/
theorem c226_line (ties : List Tie) (old : Vec) (hn : 6 ≤ ties.length) (a b c : ℚ) (h0 : ¬ (a = 0 ∧ b = 0 ∧ c = 0))
    (h : ∀ t ∈ ties, a + b * t.x1 + c * t.y1 = 0) (x y : ℚ) :
    transformed .affine (coefficients .affine ties old) x y = (x, y) := by
  rw [degenerate .affine ties old (fun j => if j = 0 then a else if j = 1 then b else if j = 2 then c else 0) hn]
  · simp [transformed, Kind.size, Kind.start]
  · by_contra hc
    push Not at hc
    refine h0 ⟨?_, ?_, ?_⟩
    · simpa using hc 0 (by decide)
    · simpa using hc 1 (by decide)
    · simpa using hc 2 (by decide)
  · intro w hw
    obtain ⟨t, ht, hw⟩ := List.mem_flatMap.1 hw
    have := h t ht
    simp only [Kind.rows, List.mem_cons, List.not_mem_nil, or_false] at hw
    rcases hw with rfl | rfl
    · simp [dot, Kind.size, List.range_succ, monomial]; linarith
    · simp [dot, Kind.size, List.range_succ, monomial]

/-- C226: tie points on one conic do not determine a polynomial; the image is left as it is. -/
theorem c226_conic (ties : List Tie) (old : Vec) (hn : 12 ≤ ties.length) (a : Nat → ℚ) (h0 : ∃ j, j < 6 ∧ a j ≠ 0)
    (h : ∀ t ∈ ties, a 0 + a 1 * t.x1 + a 2 * t.y1 + a 3 * t.x1 ^ 2 + a 4 * (t.x1 * t.y1) + a 5 * t.y1 ^ 2 = 0) (x y : ℚ) :
    transformed .polynomial (coefficients .polynomial ties old) x y = (x, y) := by
  rw [degenerate .polynomial ties old (fun j => if j < 6 then a j else 0) hn]
  · simp [transformed, Kind.size, Kind.start]
  · obtain ⟨j, hj, hne⟩ := h0
    exact ⟨j, by simp [Kind.size]; omega, by simpa [hj] using hne⟩
  · intro w hw
    obtain ⟨t, ht, hw⟩ := List.mem_flatMap.1 hw
    have := h t ht
    simp only [Kind.rows, List.mem_cons, List.not_mem_nil, or_false] at hw
    rcases hw with rfl | rfl
    · simp [dot, Kind.size, List.range_succ, monomial]; linarith
    · simp [dot, Kind.size, List.range_succ, monomial]

example : transformed .affine (coefficients .affine (List.replicate 6 ⟨1, 2, 3, 4⟩) fun _ => 0) 7 8 = (7, 8) :=
  c226_line _ _ (by simp) 1 (-1) 0 (by norm_num) (fun t ht => by rw [List.eq_of_mem_replicate ht]; norm_num) 7 8

example : (fit .translation [⟨0, 0, 1, 1⟩, ⟨1, 0, 2, 1⟩] fun _ => 0).err2 = 9999 ^ 2 :=
  (c227_error .translation [⟨0, 0, 1, 1⟩, ⟨1, 0, 2, 1⟩] (fun _ => 0) (by decide)).2.2 rfl

/-- C223: after co-registration, the first pixels of the image, as many as it has rows, are marked as off exactly if the
registered reference band has no data there; all other pixels have the mark of the registered quality band. -/
theorem c223_coregister_partial {ties : List Tie} {bands : List Img} {off : Img} {nodata : Int} {band : Nat}
    {bs : List (List Int)} {fl : List Bool} {b : List Int} (h : coregister ties bands off nodata band = .ok (bs, fl))
    (hb : bs[band]? = some b) (hl : b.length = off.nx * off.ny) (p : Nat) (hp : p < off.nx * off.ny) :
    (p < off.ny → (fl[p]? = some true ↔ b[p]? = some nodata)) ∧
    (off.ny ≤ p → (fl[p]? = some true ↔
      qualityPixel .affine (transformFromDm .affine ties).1 off 1 (p % off.nx) (p / off.nx) = 1)) := by
  unfold coregister at h
  dsimp only at h
  split at h
  swap
  · cases h
  cases hm : Verif.Str.mapOut (fun b => registerBand .affine (transformFromDm .affine ties).1 b nodata) bands with
  | exit => rw [hm] at h; cases h
  | ub => rw [hm] at h; cases h
  | ok cs =>
    rw [hm] at h
    simp only [Verif.Str.Out.bind] at h
    cases h
    have hlen : ((registerQuality .affine (transformFromDm .affine ties).1 off 1).map fun q => decide (q = 1)).length =
        off.nx * off.ny := by simp [registerQuality]
    have hbd : bs.getD band [] = b := by rw [List.getD_eq_getElem?_getD, hb]; rfl
    rw [hbd]
    refine ⟨fun hlt => c223_off_partial _ _ _ _ _ (by rw [hl, hlen]) hlt (by rw [hlen]; exact hp), fun hge => ?_⟩
    rw [c223_rest _ _ _ _ _ hge (by rw [hlen]; exact hp), List.getElem?_map, registerQuality, List.getElem?_map,
      List.getElem?_range hp]
    simp

/-- C231: the path of the base image fits into its buffer. -/
theorem c231_buffer {dir : List Char} {names : List (List Char)} {year month : Int} {f : List Char} {b : Int}
    (h : baseImage dir names year month = some (f, b)) : f.length < 1024 := by
  unfold baseImage at h
  obtain ⟨g, hg, he⟩ := Option.map_eq_some_iff.1 h
  obtain ⟨rfl, rfl⟩ := Prod.mk.inj he
  have key : ∀ (fuel dy : Nat) (f : List Char), findBase dir names year fuel dy = some f → f.length < 1024 := by
    intro fuel
    induction fuel with
    | zero => intro dy f h; cases h
    | succ n ih =>
      intro dy f h
      rw [findBase] at h
      cases hs : findStarts dir names (Verif.Libc.fmtInt0 4 (year - dy)) 1024 with
      | none => rw [hs] at h; exact ih _ _ h
      | some f' =>
        rw [hs] at h
        cases h
        unfold findStarts at hs
        split at hs
        · cases hs
        · split at hs
          · cases hs
          · rename_i hc
            cases hs
            simp only [List.length_append, List.length_cons]
            omega
  exact key _ _ _ hg

end Verif.Coreg
