import Mathlib.Algebra.BigOperators.Group.List.Basic
import Mathlib.Algebra.Order.BigOperators.Group.List
import Mathlib.Tactic.Linarith
import Mathlib.Tactic.FieldSimp
import Mathlib.Tactic.Positivity
import Mathlib.Tactic.IntervalCases
import Mathlib.Tactic.FinCases
import Verif.Merge.Improphe

/-!
# C192: resolution merge with STARFM
-/

namespace Verif.Merge

open Spec

theorem blocks_eq (m : Img) : blocks m = (List.range ((m.ny + 1) / 2 * ((m.nx + 1) / 2))).map
    fun k => (2 * (k / ((m.nx + 1) / 2)), 2 * (k % ((m.nx + 1) / 2))) := by
  unfold blocks
  generalize (m.ny + 1) / 2 = h
  generalize (m.nx + 1) / 2 = w
  induction h with
  | zero => simp
  | succ h ih =>
    rw [List.range_succ, List.flatMap_append, ih, Nat.succ_mul, List.range_add, List.map_append]
    congr 1
    rw [List.flatMap_singleton, List.map_map]
    apply List.map_congr_left
    intro j hj
    rw [List.mem_range] at hj
    simp only [Function.comp_apply]
    have hw : 0 < w := by omega
    rw [Nat.mul_comm h w, Nat.mul_add_div hw, Nat.div_eq_of_lt hj, Nat.mul_add_mod, Nat.mod_eq_of_lt hj]
    rfl

/-- The reduction, block by block. -/
theorem reduce_eq (m : Img) (a : Nat → ℝ) : reduce m a
    = (List.range ((m.ny + 1) / 2 * ((m.nx + 1) / 2))).foldl (fun a k =>
      reduceBlock m a (k, (2 * (k / ((m.nx + 1) / 2)), 2 * (k % ((m.nx + 1) / 2))))) a := by
  unfold reduce
  rw [blocks_eq, List.length_map, List.length_range]
  generalize (m.ny + 1) / 2 * ((m.nx + 1) / 2) = n
  have : ∀ (f : Nat → Nat × Nat) (l : List Nat), l.zip (l.map f) = l.map fun k => (k, f k) := by
    intro f l
    induction l with
    | nil => rfl
    | cons x l ih => rw [List.map_cons, List.zip_cons_cons, ih, List.map_cons]
  rw [this, List.foldl_map]

/-- The pixels of a block. -/
theorem mem_block {m : Img} {i j k : Nat} : k ∈ block m i j ↔
    ∃ di dj, di < 2 ∧ dj < 2 ∧ i + di < m.ny ∧ j + dj < m.nx ∧ m.off (pix m (i + di) (j + dj)) = false ∧
      k = pix m (i + di) (j + dj) := by
  unfold block
  rw [List.mem_filterMap]
  constructor
  · rintro ⟨c, hc, h⟩
    have hc' : c.1 < 2 ∧ c.2 < 2 := by
      fin_cases hc <;> simp
    split at h
    · cases h
    · rename_i hn
      rw [not_or] at hn
      split at h
      · cases h
      · rename_i ho
        exact ⟨c.1, c.2, hc'.1, hc'.2, by omega, by omega, by simpa [pix] using ho, (Option.some.inj h).symm⟩
  · rintro ⟨di, dj, h1, h2, h3, h4, h5, rfl⟩
    refine ⟨(di, dj), ?_, ?_⟩
    · interval_cases di <;> interval_cases dj <;> simp
    · rw [if_neg (by simp only; omega), if_neg]
      · rfl
      · unfold pix at h5
        simp [h5]

theorem block_coords {m : Img} {b k : Nat} (h : k ∈ block m (2 * (b / ((m.nx + 1) / 2))) (2 * (b % ((m.nx + 1) / 2)))) :
    b = k / m.nx / 2 * ((m.nx + 1) / 2) + k % m.nx / 2 := by
  obtain ⟨di, dj, h1, h2, h3, h4, -, rfl⟩ := mem_block.1 h
  unfold pix
  have hx : 0 < m.nx := by omega
  have e1 : ((2 * (b / ((m.nx + 1) / 2)) + di) * m.nx + (2 * (b % ((m.nx + 1) / 2)) + dj)) / m.nx
      = 2 * (b / ((m.nx + 1) / 2)) + di := by
    rw [Nat.mul_comm, Nat.mul_add_div hx, Nat.div_eq_of_lt h4, Nat.add_zero]
  have e2 : ((2 * (b / ((m.nx + 1) / 2)) + di) * m.nx + (2 * (b % ((m.nx + 1) / 2)) + dj)) % m.nx
      = 2 * (b % ((m.nx + 1) / 2)) + dj := by
    rw [Nat.mul_comm, Nat.mul_add_mod, Nat.mod_eq_of_lt h4]
  rw [e1, e2]
  have e3 : (2 * (b / ((m.nx + 1) / 2)) + di) / 2 = b / ((m.nx + 1) / 2) := by omega
  have e4 : (2 * (b % ((m.nx + 1) / 2)) + dj) / 2 = b % ((m.nx + 1) / 2) := by omega
  rw [e3, e4]
  have := Nat.div_add_mod b ((m.nx + 1) / 2)
  rw [Nat.mul_comm] at this
  exact this.symm

/-- The block of a pixel. -/
theorem own_block {m : Img} {i j : Nat} (hj : j < m.nx) :
    2 * ((i / 2 * ((m.nx + 1) / 2) + j / 2) / ((m.nx + 1) / 2)) = i / 2 * 2 ∧
    2 * ((i / 2 * ((m.nx + 1) / 2) + j / 2) % ((m.nx + 1) / 2)) = j / 2 * 2 := by
  have hw : j / 2 < (m.nx + 1) / 2 := by omega
  have hw0 : 0 < (m.nx + 1) / 2 := by omega
  rw [Nat.mul_comm (i / 2), Nat.mul_add_div hw0, Nat.div_eq_of_lt hw, Nat.mul_add_mod, Nat.mod_eq_of_lt hw]
  omega

theorem reduceBlock_other {m : Img} (a : Nat → ℝ) {b k : Nat}
    (h : b ≠ k / m.nx / 2 * ((m.nx + 1) / 2) + k % m.nx / 2) :
    reduceBlock m a (b, (2 * (b / ((m.nx + 1) / 2)), 2 * (b % ((m.nx + 1) / 2)))) k = a k := by
  unfold reduceBlock
  split
  · rfl
  · simp only
    split
    · rfl
    · show (if _ then _ else _) = _
      rw [if_neg (fun hk => h (block_coords hk))]

/-- The value of a pixel after the reduction is that after the reduction of its block alone. -/
theorem reduce_pixel (m : Img) (a : Nat → ℝ) (i j : Nat) (hi : i < m.ny) (hj : j < m.nx) :
    reduce m a (pix m i j) = reduceBlock m a (i / 2 * ((m.nx + 1) / 2) + j / 2, (i / 2 * 2, j / 2 * 2)) (pix m i j) := by
  rw [reduce_eq]
  set f := fun (a : Nat → ℝ) (k : Nat) =>
    reduceBlock m a (k, (2 * (k / ((m.nx + 1) / 2)), 2 * (k % ((m.nx + 1) / 2)))) with hf
  set B := i / 2 * ((m.nx + 1) / 2) + j / 2 with hB
  have hx : 0 < m.nx := by omega
  have before : ∀ n, n ≤ B → ∀ k, k / m.nx / 2 * ((m.nx + 1) / 2) + k % m.nx / 2 = B →
      (List.range n).foldl f a k = a k := by
    intro n
    induction n with
    | zero => intro _ k _; rfl
    | succ n ih =>
      intro hn k hk
      rw [List.range_succ, List.foldl_append, List.foldl_cons, List.foldl_nil, hf]
      simp only
      rw [reduceBlock_other _ (by omega)]
      exact ih (by omega) k hk
  have pcoord : pix m i j / m.nx / 2 * ((m.nx + 1) / 2) + pix m i j % m.nx / 2 = B := by
    unfold pix
    rw [Nat.mul_comm i, Nat.mul_add_div hx, Nat.div_eq_of_lt hj, Nat.add_zero, Nat.mul_add_mod, Nat.mod_eq_of_lt hj]
  obtain ⟨o1, o2⟩ := own_block (m := m) (i := i) (j := j) hj
  rw [← hB] at o1 o2
  have at' : ∀ n, B < n → (List.range n).foldl f a (pix m i j) = reduceBlock m a (B, (i / 2 * 2, j / 2 * 2)) (pix m i j) := by
    intro n
    induction n with
    | zero => intro h; omega
    | succ n ih =>
      intro hn
      rw [List.range_succ, List.foldl_append, List.foldl_cons, List.foldl_nil]
      by_cases hnB : n = B
      · rw [hnB]
        have hcell : ∀ k ∈ block m (i / 2 * 2) (j / 2 * 2), (List.range B).foldl f a k = a k := by
          intro k hk
          rw [← o1, ← o2] at hk
          exact before B le_rfl k (block_coords hk).symm
        have hown := before B le_rfl _ pcoord
        generalize (List.range B).foldl f a = g at hcell hown ⊢
        simp only [hf]
        rw [o1, o2]
        unfold reduceBlock
        simp only
        by_cases hoff : m.off B = true
        · rw [if_pos hoff, if_pos hoff]
          exact hown
        · rw [if_neg hoff, if_neg hoff]
          by_cases hnil : block m (i / 2 * 2) (j / 2 * 2) = []
          · rw [if_pos hnil, if_pos hnil]
            exact hown
          · rw [if_neg hnil, if_neg hnil, List.map_congr_left hcell]
            show (if _ then _ else _) = (if _ then _ else _)
            rw [hown]
      · rw [← ih (by omega)]
        simp only [hf]
        exact reduceBlock_other _ (by omega)
  apply at'
  have h1 : i / 2 + 1 ≤ (m.ny + 1) / 2 := by omega
  have h2 : j / 2 < (m.nx + 1) / 2 := by omega
  calc B = i / 2 * ((m.nx + 1) / 2) + j / 2 := hB
    _ < i / 2 * ((m.nx + 1) / 2) + (m.nx + 1) / 2 := by omega
    _ = (i / 2 + 1) * ((m.nx + 1) / 2) := by ring
    _ ≤ (m.ny + 1) / 2 * ((m.nx + 1) / 2) := Nat.mul_le_mul_right _ h1

/-- C192, partial: in an image without missing pixels, every pixel of the reduced image has the
mean of its block of 2 x 2 pixels. Missing: images with missing pixels (below). -/
theorem c192_blocks_partial (m : Img) (a : Nat → ℝ) (i j : Nat) (hi : i < m.ny) (hj : j < m.nx)
    (hoff : ∀ k, m.off k = false) : reduce m a (pix m i j) = blockMean m a i j := by
  rw [reduce_pixel m a i j hi hj]
  unfold reduceBlock
  rw [if_neg (by simp [hoff])]
  simp only
  have hp : pix m i j ∈ block m (i / 2 * 2) (j / 2 * 2) := by
    refine mem_block.2 ⟨i % 2, j % 2, by omega, by omega, by omega, by omega, hoff _, ?_⟩
    have e1 : i / 2 * 2 + i % 2 = i := by omega
    have e2 : j / 2 * 2 + j % 2 = j := by omega
    rw [e1, e2]
  rw [if_neg (List.ne_nil_of_mem hp), if_pos hp]
  have e : block m (i / 2 * 2) (j / 2 * 2) = ((([(0, 0), (0, 1), (1, 0), (1, 1)] : List (Nat × Nat)).map
      fun c => (i / 2 * 2 + c.1, j / 2 * 2 + c.2)).filter fun c => decide (c.1 < m.ny ∧ c.2 < m.nx)).map
      fun c => pix m c.1 c.2 := by
    unfold block
    rw [← List.filterMap_eq_map, ← List.filterMap_eq_filter, List.filterMap_filterMap, ← List.filterMap_eq_map,
      List.filterMap_filterMap]
    apply List.filterMap_congr
    intro c _
    simp only [hoff, Function.comp_apply, Option.bind_some, Option.guard, Bool.false_eq_true, if_false]
    by_cases h : i / 2 * 2 + c.1 < m.ny ∧ j / 2 * 2 + c.2 < m.nx
    · rw [if_neg (by omega)]
      simp [h, pix]
    · rw [if_pos (by omega)]
      simp [h]
  unfold blockMean
  simp only
  rw [e, List.map_map, List.length_map]
  rfl

/-- C192, violated: whether a block is reduced does not depend on its own pixels, but on the pixel
with the number of the block. If that pixel is off, the block keeps its values at full resolution. -/
theorem c192_flag_violated (m : Img) (a : Nat → ℝ) (i j : Nat) (hi : i < m.ny) (hj : j < m.nx)
    (hoff : m.off (i / 2 * ((m.nx + 1) / 2) + j / 2) = true) : reduce m a (pix m i j) = a (pix m i j) := by
  rw [reduce_pixel m a i j hi hj]
  unfold reduceBlock
  rw [if_pos hoff]

theorem least_eq (l : List ℝ) : least l = 32767 ∨ ∃ x ∈ l, least l = |x| := by
  unfold least
  have key : ∀ (l : List ℝ) (a : ℝ), l.foldl (fun a x => if |x| < a then |x| else a) a = a ∨
      ∃ x ∈ l, l.foldl (fun a x => if |x| < a then |x| else a) a = |x| := by
    intro l
    induction l with
    | nil => intro a; exact Or.inl rfl
    | cons y l ih =>
      intro a
      rw [List.foldl_cons]
      rcases ih (if |y| < a then |y| else a) with h | ⟨x, hx, h⟩
      · rw [h]
        split
        · exact Or.inr ⟨y, by simp, rfl⟩
        · exact Or.inl rfl
      · exact Or.inr ⟨x, by simp [hx], h⟩
  exact key l 32767

theorem unc_pos : 0 < unc := by
  unfold unc
  apply Real.sqrt_pos.2
  norm_num

theorem uncAll_pos : 0 < uncAll := by
  unfold uncAll
  have := unc_pos
  positivity

theorem weight_pos {c : Cand} (h : 0 ≤ c.d2) : 0 < weight c := by
  unfold weight
  simp only
  split
  · norm_num
  · have := Real.sqrt_nonneg c.d2
    positivity

/-- C192: a pixel of the image that is not off always is a candidate for itself. -/
theorem c192_candidate (m : Img) (prs : List Pair) (y : Nat → ℝ) (i j : Nat) (hv : Valid m i j) (hp : prs ≠ [])
    (hs : ∀ q ∈ prs, 0 ≤ q.slice) (hr : ∀ q ∈ prs, |q.coarse (pix m i j) - y (pix m i j)| < 32767) :
    candidates m prs y i j ≠ [] := by
  have hmem : pix m i j ∈ (square m 1 i j).filter fun np => !m.off np := by
    rw [List.mem_filter]
    exact ⟨mem_square.2 ⟨i, j, hv.1, hv.2.1, near_self _ _ _, rfl⟩, by simp [hv.2.2]⟩
  have hq : ∃ q ∈ prs, |q.coarse (pix m i j) - y (pix m i j)|
      < least (prs.map fun q => q.coarse (pix m i j) - y (pix m i j)) + unc := by
    rcases least_eq (prs.map fun q => q.coarse (pix m i j) - y (pix m i j)) with h | ⟨x, hx, h⟩
    · obtain ⟨q, l, rfl⟩ := List.exists_cons_of_ne_nil hp
      refine ⟨q, by simp, ?_⟩
      rw [h]
      linarith [hr q (by simp), unc_pos]
    · obtain ⟨q, hq, rfl⟩ := List.mem_map.1 hx
      refine ⟨q, hq, ?_⟩
      rw [h]
      linarith [unc_pos]
  obtain ⟨q, hq, hlt⟩ := hq
  unfold candidates
  simp only
  intro he
  rw [List.flatMap_eq_nil_iff] at he
  have h1 := List.filterMap_eq_nil_iff.1 (he _ hmem) q hq
  have hself : q.fine (pix m i j) - q.fine (i * m.nx + j) = 0 := sub_self _
  rw [hself, abs_zero, if_neg (not_lt.2 (hs q hq)), show i * m.nx + j = pix m i j from rfl,
    if_pos (Or.inl hlt)] at h1
  cases h1

theorem cand_value {m : Img} {prs : List Pair} {y : Nat → ℝ} {i j : Nat} {c : Cand} (h : c ∈ candidates m prs y i j) :
    0 ≤ c.d2 ∧ ∃ q ∈ prs, ∃ i' j', Valid m i' j' ∧ Near 1 i j i' j' ∧
      |q.fine (pix m i' j') - q.fine (pix m i j)| ≤ q.slice ∧
      c.v = y (pix m i' j') + (q.fine (pix m i' j') - q.coarse (pix m i' j')) := by
  unfold candidates at h
  simp only [List.mem_flatMap, List.mem_filterMap] at h
  obtain ⟨np, hnp, q, hq, h⟩ := h
  rw [List.mem_filter] at hnp
  obtain ⟨i', j', v1, v2, hn, rfl⟩ := mem_square.1 hnp.1
  split at h
  · cases h
  · rename_i hsl
    split at h
    · have := Option.some.inj h
      subst this
      refine ⟨by positivity, q, hq, i', j', ⟨v1, v2, by simpa using hnp.2⟩, hn, not_lt.1 hsl, ?_⟩
      simp only
      ring
    · cases h

/-- C192: the weights sum up to one, so that the prediction lies between the smallest and the
largest of the values that the similar pixels around predict: the 20 m band there, plus the detail
the 10 m image has there. -/
theorem c192_range (m : Img) (prs : List Pair) (y : Nat → ℝ) (i j : Nat) (lo hi : ℝ) (hv : Valid m i j) (hp : prs ≠ [])
    (hs : ∀ q ∈ prs, 0 ≤ q.slice) (hr : ∀ q ∈ prs, |q.coarse (pix m i j) - y (pix m i j)| < 32767)
    (h : ∀ q ∈ prs, ∀ i' j', Valid m i' j' → Near 1 i j i' j' → |q.fine (pix m i' j') - q.fine (pix m i j)| ≤ q.slice →
      lo ≤ y (pix m i' j') + (q.fine (pix m i' j') - q.coarse (pix m i' j')) ∧
      y (pix m i' j') + (q.fine (pix m i' j') - q.coarse (pix m i' j')) ≤ hi) :
    lo ≤ starfm m prs y i j ∧ starfm m prs y i j ≤ hi := by
  have hne := c192_candidate m prs y i j hv hp hs hr
  unfold starfm
  simp only
  rw [if_neg hne]
  set l := candidates m prs y i j with hl
  obtain ⟨p, k1, k2⟩ := wmean l weight (fun c => c.v) lo hi hne (fun c hc => weight_pos (cand_value hc).1)
    (fun c hc => by
      obtain ⟨-, q, hq, i', j', v, n, s, e⟩ := cand_value hc
      have := h q hq i' j' v n s
      rw [← e] at this
      exact this)
  have e : (l.map fun c => weight c / (l.map weight).sum * c.v).sum
      = (l.map fun c => weight c * c.v).sum / (l.map weight).sum := by
    generalize (l.map weight).sum = W
    have key : ∀ l : List Cand, (l.map fun c => weight c / W * c.v).sum = (l.map fun c => weight c * c.v).sum / W := by
      intro l
      induction l with
      | nil => simp
      | cons a l ih =>
        simp only [List.map_cons, List.sum_cons]
        rw [ih]
        ring
    exact key l
  rw [e]
  exact ⟨(le_div_iff₀ p).2 k1, (div_le_iff₀ p).2 k2⟩

/-- C192: where the 10 m bands have no detail, a homogeneous 20 m band stays as it is. -/
theorem c192_flat (m : Img) (prs : List Pair) (y : Nat → ℝ) (i j : Nat) (hv : Valid m i j) (hp : prs ≠ [])
    (hs : ∀ q ∈ prs, 0 ≤ q.slice) (hr : ∀ q ∈ prs, |q.coarse (pix m i j) - y (pix m i j)| < 32767)
    (hd : ∀ q ∈ prs, ∀ i' j', Valid m i' j' → Near 1 i j i' j' → q.fine (pix m i' j') = q.coarse (pix m i' j'))
    (hy : ∀ i' j', Valid m i' j' → Near 1 i j i' j' → y (pix m i' j') = y (pix m i j)) :
    starfm m prs y i j = y (pix m i j) := by
  obtain ⟨a, b⟩ := c192_range m prs y i j (y (pix m i j)) (y (pix m i j)) hv hp hs hr (by
    intro q hq i' j' v n _
    rw [hd q hq i' j' v n, hy i' j' v n]
    constructor <;> linarith)
  exact le_antisymm b a

theorem uncAll_eq : uncAll = 0.004 := by
  unfold uncAll unc
  rw [Real.mul_self_sqrt (by norm_num), show (0.002 * 0.002 + 0.002 * 0.002 + (0.002 * 0.002 + 0.002 * 0.002) : ℝ)
    = 0.004 ^ 2 by norm_num, Real.sqrt_sq (by norm_num)]

/-- C192: of two candidates that are not very close (product of the differences at least 0.004), the
nearer and more similar one has at least the weight of the other. -/
theorem c192_weight (c c' : Cand) (hd : c.d2 ≤ c'.d2) (h1 : |c.rc| ≤ |c'.rc|) (h2 : |c.rf| ≤ |c'.rf|)
    (h3 : 0.004 ≤ (|c.rc| + 0.0001) * (|c.rf| + 0.0001)) : weight c' ≤ weight c := by
  have hmul : (|c.rc| + 0.0001) * (|c.rf| + 0.0001) ≤ (|c'.rc| + 0.0001) * (|c'.rf| + 0.0001) := by
    have := abs_nonneg c.rc
    have := abs_nonneg c.rf
    apply mul_le_mul <;> linarith
  unfold weight
  simp only
  rw [uncAll_eq, if_neg (by linarith), if_neg (by linarith)]
  have := Real.sqrt_le_sqrt hd
  have := Real.sqrt_nonneg c.d2
  apply one_div_le_one_div_of_le
  · positivity
  · apply mul_le_mul hmul <;> linarith

/-- C192, violated: candidates that are very close (product of the differences below 0.004) are
meant to have the largest weight, but have a smaller weight than those that are less close (product
between 0.004 and 0.4) at a distance of at most 1.4 pixels. -/
theorem c192_close_violated (c c' : Cand) (h : (|c.rc| + 0.0001) * (|c.rf| + 0.0001) < 0.004)
    (h' : 0.004 ≤ (|c'.rc| + 0.0001) * (|c'.rf| + 0.0001)) (h4 : (|c'.rc| + 0.0001) * (|c'.rf| + 0.0001) ≤ 0.4)
    (hd : c'.d2 ≤ 1.96) : weight c < weight c' := by
  unfold weight
  simp only
  rw [uncAll_eq, if_pos h, if_neg (by linarith)]
  have s : Real.sqrt c'.d2 ≤ 1.4 := by
    rw [show (1.4 : ℝ) = Real.sqrt 1.96 by rw [show (1.96 : ℝ) = 1.4 ^ 2 by norm_num, Real.sqrt_sq (by norm_num)]]
    exact Real.sqrt_le_sqrt hd
  have s0 := Real.sqrt_nonneg c'.d2
  rw [lt_div_iff₀ (by positivity), one_mul]
  generalize (|c'.rc| + 0.0001) * (|c'.rf| + 0.0001) = t at *
  nlinarith

/-- C192: the stored value of a pixel that is not off is between those the similar pixels around
predict. -/
theorem c192_stored (m : Img) (prs : List Pair) (y : Nat → ℤ) (i j : Nat) (lo hi : ℤ) (hv : Valid m i j) (hp : prs ≠ [])
    (hs : ∀ q ∈ prs, 0 ≤ q.slice) (hr : ∀ q ∈ prs, |q.coarse (pix m i j) - y (pix m i j) / 10000| < 32767)
    (h : ∀ q ∈ prs, ∀ i' j', Valid m i' j' → Near 1 i j i' j' → |q.fine (pix m i' j') - q.fine (pix m i j)| ≤ q.slice →
      lo ≤ y (pix m i' j') + 10000 * (q.fine (pix m i' j') - q.coarse (pix m i' j')) ∧
      y (pix m i' j') + 10000 * (q.fine (pix m i' j') - q.coarse (pix m i' j')) ≤ hi) :
    lo ≤ starfmPixel m prs y i j ∧ starfmPixel m prs y i j ≤ hi := by
  obtain ⟨a, b⟩ := c192_range m prs (fun k => (y k : ℝ) / 10000) i j ((lo : ℝ) / 10000) ((hi : ℝ) / 10000) hv hp hs hr (by
    intro q hq i' j' v n s
    obtain ⟨a, b⟩ := h q hq i' j' v n s
    constructor <;> linarith)
  unfold starfmPixel
  rw [if_neg]
  · apply truncR_between <;> linarith
  · have := hv.2.2
    unfold pix at this
    simp [this]

/-- C192, violated: a pixel that is off loses its nodata value; it is set to 0. -/
theorem c192_off_violated (m : Img) (prs : List Pair) (y : Nat → ℤ) (i j : Nat) (h : m.off (pix m i j) = true) :
    starfmPixel m prs y i j = 0 := by
  unfold starfmPixel
  rw [if_pos (show m.off (i * m.nx + j) = true from h), zero_mul]
  exact_mod_cast truncR_int 0

end Verif.Merge
