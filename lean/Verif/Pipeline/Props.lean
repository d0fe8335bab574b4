import Verif.Pipeline.Lemmas

/-!
# Properties C21 - C24: the streaming pipeline
-/

namespace Verif.Pipeline
open Spec

/-! ## C21 -/

theorem iterations_get (n i : Nat) (w : Work) (h : (iterations n)[i]? = some w) :
    i < n + 2 ∧ w = workAt n i := by
  rw [iterations_eq, List.getElem?_map] at h
  by_cases hi : i < n + 2
  · rw [List.getElem?_range hi] at h
    simp only [Option.map_some, Option.some.injEq] at h
    exact ⟨hi, h.symm⟩
  · rw [List.getElem?_eq_none (by simpa using hi)] at h
    simp at h

theorem iterations_get' (n i : Nat) (h : i < n + 2) : (iterations n)[i]? = some (workAt n i) := by
  rw [iterations_eq, List.getElem?_map, List.getElem?_range h]; rfl

theorem workAt_read (n k : Nat) (p : Int) : (workAt n k).read = some p ↔ k < n ∧ (k : Int) = p := by
  simp [workAt]

theorem workAt_compute (n k : Nat) (p : Int) :
    (workAt n k).compute = some p ↔ (1 ≤ k ∧ k ≤ n) ∧ (k : Int) - 1 = p := by
  simp [workAt]

theorem workAt_write (n k : Nat) (p : Int) :
    (workAt n k).write = some p ↔ 2 ≤ k ∧ (k : Int) - 2 = p := by
  simp [workAt]

/-- C21: the main loop ends after n + 2 iterations. -/
theorem c21_terminates (n : Nat) : (iterations n).length = n + 2 := by
  rw [iterations_eq]; simp

/-- C21: each unit is read in exactly one iteration, computed in exactly one later iteration and
written in exactly one still later iteration. -/
theorem c21_exactly_once (n u : Nat) (hu : u < n) :
    ∃ r c w, r < c ∧ c < w ∧ w < (iterations n).length ∧
      ∀ (i : Nat) (work : Work), (iterations n)[i]? = some work →
        (work.read = some (u : Int) ↔ i = r) ∧ (work.compute = some (u : Int) ↔ i = c) ∧
        (work.write = some (u : Int) ↔ i = w) := by
  refine ⟨u, u + 1, u + 2, by omega, by omega, by rw [c21_terminates]; omega, ?_⟩
  intro i work h
  obtain ⟨hi, rfl⟩ := iterations_get n i work h
  refine ⟨?_, ?_, ?_⟩
  · unfold workAt
    by_cases h : i < n
    · simp only [h, if_true, Option.some.injEq]; omega
    · simp only [h, if_false, reduceCtorEq, false_iff]; omega
  · unfold workAt
    by_cases h : 1 ≤ i ∧ i ≤ n
    · simp only [h, and_self, if_true, Option.some.injEq]; omega
    · simp only [h, if_false, reduceCtorEq, false_iff]; omega
  · unfold workAt
    by_cases h : 2 ≤ i
    · simp only [h, if_true, Option.some.injEq]; omega
    · simp only [h, if_false, reduceCtorEq, false_iff]; omega

/-- C21: no other unit is ever touched: all accesses to the arrays of `n` slots are within
bounds. -/
theorem c21_in_bounds (n : Nat) (work : Work) (h : work ∈ iterations n) (p : Int)
    (hp : work.read = some p ∨ work.compute = some p ∨ work.write = some p) : 0 ≤ p ∧ p < n := by
  obtain ⟨i, hi⟩ := List.mem_iff_getElem?.1 h
  obtain ⟨hi', rfl⟩ := iterations_get n i work hi
  unfold workAt at hp
  rcases hp with h | h | h
  · by_cases hh : i < n
    · simp only [hh, if_true, Option.some.injEq] at h; omega
    · simp [hh] at h
  · by_cases hh : 1 ≤ i ∧ i ≤ n
    · simp only [hh, and_self, if_true, Option.some.injEq] at h; omega
    · simp [hh] at h
  · by_cases hh : 2 ≤ i
    · simp only [hh, if_true, Option.some.injEq] at h; omega
    · simp [hh] at h

/-- C21: units are handled in ascending order by each stage. -/
theorem c21_ascending (n i j : Nat) (hij : i < j) (w w' : Work) (hi : (iterations n)[i]? = some w)
    (hj : (iterations n)[j]? = some w') :
    (∀ p q, w.read = some p → w'.read = some q → p < q) ∧
    (∀ p q, w.compute = some p → w'.compute = some q → p < q) ∧
    (∀ p q, w.write = some p → w'.write = some q → p < q) := by
  obtain ⟨hi', rfl⟩ := iterations_get n i w hi
  obtain ⟨hj', rfl⟩ := iterations_get n j w' hj
  refine ⟨?_, ?_, ?_⟩
  · intro p q hp hq
    first
      | rw [workAt_read] at hp
      | rw [workAt_compute] at hp
      | rw [workAt_write] at hp
    first
      | rw [workAt_read] at hq
      | rw [workAt_compute] at hq
      | rw [workAt_write] at hq
    omega
  · intro p q hp hq
    first
      | rw [workAt_read] at hp
      | rw [workAt_compute] at hp
      | rw [workAt_write] at hp
    first
      | rw [workAt_read] at hq
      | rw [workAt_compute] at hq
      | rw [workAt_write] at hq
    omega
  · intro p q hp hq
    first
      | rw [workAt_read] at hp
      | rw [workAt_compute] at hp
      | rw [workAt_write] at hp
    first
      | rw [workAt_read] at hq
      | rw [workAt_compute] at hq
      | rw [workAt_write] at hq
    omega

example : iterations 2 = [⟨some 0, none, none⟩, ⟨some 1, some 0, none⟩, ⟨none, some 1, some 0⟩,
    ⟨none, none, some 1⟩] := by rw [iterations_eq]; decide

/-! ## C22 -/

/-- C22: in every iteration the units that are read, computed and written are pairwise
different. -/
theorem c22_disjoint (n : Nat) (w : Work) (h : w ∈ iterations n) :
    (∀ p q, w.read = some p → w.compute = some q → p ≠ q) ∧
    (∀ p q, w.read = some p → w.write = some q → p ≠ q) ∧
    (∀ p q, w.compute = some p → w.write = some q → p ≠ q) := by
  obtain ⟨i, hi⟩ := List.mem_iff_getElem?.1 h
  obtain ⟨hi', rfl⟩ := iterations_get n i w hi
  refine ⟨?_, ?_, ?_⟩
  · intro p q hp hq
    first
      | rw [workAt_read] at hp
      | rw [workAt_compute] at hp
      | rw [workAt_write] at hp
    first
      | rw [workAt_read] at hq
      | rw [workAt_compute] at hq
      | rw [workAt_write] at hq
    omega
  · intro p q hp hq
    first
      | rw [workAt_read] at hp
      | rw [workAt_compute] at hp
      | rw [workAt_write] at hp
    first
      | rw [workAt_read] at hq
      | rw [workAt_compute] at hq
      | rw [workAt_write] at hq
    omega
  · intro p q hp hq
    first
      | rw [workAt_read] at hp
      | rw [workAt_compute] at hp
      | rw [workAt_write] at hp
    first
      | rw [workAt_read] at hq
      | rw [workAt_compute] at hq
      | rw [workAt_write] at hq
    omega

theorem stream_sequential {I O : Type} (rd : Int → I) (cmp : I → Option O × Nat) (ws : List Work)
    (hws : ∀ w ∈ ws, (∀ p q, w.read = some p → w.compute = some q → p ≠ q) ∧
      (∀ p q, w.read = some p → w.write = some q → p ≠ q) ∧
      (∀ p q, w.compute = some p → w.write = some q → p ≠ q))
    (s s' : St I O) (h : Stream rd cmp ws s s') : s' = sequential rd cmp ws s := by
  induction h with
  | nil s => rfl
  | @cons w ws s s' l hl hs ih =>
    have hw := hws w (by simp)
    rw [ih (fun w hw => hws w (by simp [hw])), exec_threads rd cmp w hw.1 hw.2.1 hw.2.2 l hl]
    rfl

/-- C22: whatever the interleaving of the three threads in every iteration, the streaming
program ends in the state of the sequential program. -/
theorem c22_stream_eq_sequential {I O : Type} (rd : Int → I) (cmp : I → Option O × Nat) (n : Nat)
    (s s' : St I O) (h : Stream rd cmp (iterations n) s s') :
    s' = sequential rd cmp (iterations n) s :=
  stream_sequential rd cmp _ (fun w hw => c22_disjoint n w hw) s s' h

/-- C22: in every execution the output on disk is the complete output of all units, computed
from their own input, in ascending order, each once; and no unit's data was used before it was
loaded or after it was freed. -/
theorem c22_output {I O : Type} (rd : Int → I) (cmp : I → Option O × Nat) (n : Nat) (s' : St I O)
    (h : Stream rd cmp (iterations n) initSt s') :
    s'.disk = output rd cmp n ∧ ∀ u, (∀ i, (s'.slots u).inp ≠ .loaded i) ∧
      (s'.slots u).inp ≠ .invalid := by
  rw [c22_stream_eq_sequential rd cmp n _ _ h]
  have hs := sequential_prefix rd cmp n (n + 2) (by omega)
  rw [← iterations_eq, stAt_zero] at hs
  rw [hs]
  refine ⟨rfl, ?_⟩
  intro u
  show (∀ i, (slotAt rd cmp n (n + 2) u).inp ≠ .loaded i) ∧ (slotAt rd cmp n (n + 2) u).inp ≠ .invalid
  unfold slotAt
  by_cases hu : 0 ≤ u ∧ u < n
  · rw [if_pos hu, if_neg (by omega), if_neg (by omega)]
    split <;> simp
  · rw [if_neg hu]; simp

/-- Executions exist: the sequential order is one of the interleavings. -/
theorem stream_exists {I O : Type} (rd : Int → I) (cmp : I → Option O × Nat) (ws : List Work)
    (s : St I O) : Stream rd cmp ws s (sequential rd cmp ws s) := by
  have lft : ∀ {α : Type} (a : List α), Interleave a [] a := by
    intro α a
    induction a with
    | nil => exact .nil
    | cons x a ih => exact .left ih
  have rgt : ∀ {α : Type} (a b : List α), Interleave a b (a ++ b) := by
    intro α a b
    induction a with
    | nil =>
      induction b with
      | nil => exact .nil
      | cons x b ih => exact .right ih
    | cons x a ih => exact .left ih
  induction ws generalizing s with
  | nil => exact .nil s
  | cons w ws ih =>
    refine .cons (l := (threads rd cmp w).1 ++ ((threads rd cmp w).2.1 ++ (threads rd cmp w).2.2))
      ⟨_, rgt _ _, rgt _ _⟩ ?_
    rw [← List.append_assoc]
    exact ih _

/-- Witness: three units, the second without product. -/
example : ∃ s', Stream (I := Nat) (O := Nat) (fun p => p.toNat) (fun i => (some (i * i), if i = 1 then 0 else 2))
    (iterations 3) initSt s' ∧ s'.disk = [(0, 0), (2, 4)] := by
  refine ⟨_, stream_exists _ _ _ _, ?_⟩
  rw [(c22_output _ _ 3 _ (stream_exists _ _ _ _)).1]
  decide

/-! ## C23 -/

/-- C23: as long as there are at most 2^24 processing units, each unit below n_tiles * chunks is
mapped to the tile, chunk row and chunk column it stands for in the row-by-row enumeration, for
every result the single precision division may have. -/
theorem c23_unit_to_chunk_partial (nTiles cols rows pu : Nat) (hc : 1 ≤ cols) (hr : 1 ≤ rows)
    (hpu : pu < nTiles * (cols * rows)) (hmax : nTiles * (cols * rows) ≤ 2 ^ 24) (t : Int)
    (ht : Float.DivFloor 24 pu ((cols * rows : Nat) : Int) t) :
    ∃ tile cx cy : Nat, unitToChunk cols rows pu t = ((tile : Int), (cx : Int), (cy : Int)) ∧
      tile < nTiles ∧ cx < cols ∧ cy < rows ∧ pu = tile * (cols * rows) + cy * cols + cx := by
  have hcr : 0 < cols * rows := Nat.mul_pos hc hr
  have hnt : 1 ≤ nTiles := by
    by_contra h
    have : nTiles = 0 := by omega
    subst this; simp at hpu
  have hcr2 : cols * rows ≤ 2 ^ 24 := by nlinarith
  have hte : t = ((pu / (cols * rows) : Nat) : Int) := by
    have := Float.divFloor_exact (p := 24) (a := (pu : Int)) (b := ((cols * rows : Nat) : Int))
      (t := t) (by omega) (by omega) (by omega) (by omega) ht
    rw [this]; push_cast; rfl
  have hmod : pu - pu / (cols * rows) * (cols * rows) = pu % (cols * rows) := by
    have := Nat.div_add_mod pu (cols * rows)
    rw [Nat.mul_comm] at this
    omega
  have hmodlt : pu % (cols * rows) < cols * rows := Nat.mod_lt _ hcr
  have hmod' : (pu : Int) - ((pu / (cols * rows) : Nat) : Int) * ((cols * rows : Nat) : Int) =
      ((pu % (cols * rows) : Nat) : Int) := by
    have h1 := Nat.div_add_mod pu (cols * rows)
    rw [Nat.mul_comm] at h1
    have h2 : ((pu / (cols * rows) * (cols * rows) + pu % (cols * rows) : Nat) : Int) = pu := by
      exact_mod_cast h1
    rw [Nat.cast_add, Nat.cast_mul] at h2
    omega
  refine ⟨pu / (cols * rows), pu % (cols * rows) % cols, pu % (cols * rows) / cols, ?_, ?_, ?_, ?_, ?_⟩
  · simp only [unitToChunk]
    rw [hte]
    have e : ((cols : Int) * rows) = ((cols * rows : Nat) : Int) := by push_cast; rfl
    rw [e, hmod']
    have e2 : Int.tdiv ((pu % (cols * rows) : Nat) : Int) (cols : Int) =
        ((pu % (cols * rows) / cols : Nat) : Int) := by
      rw [Int.tdiv_eq_ediv_of_nonneg (by omega)]; push_cast; rfl
    rw [e2]
    refine Prod.ext rfl (Prod.ext ?_ rfl)
    have h1 := Nat.div_add_mod (pu % (cols * rows)) cols
    rw [Nat.mul_comm] at h1
    have h2 : ((pu % (cols * rows) / cols * cols + pu % (cols * rows) % cols : Nat) : Int) =
      ((pu % (cols * rows) : Nat) : Int) := by exact_mod_cast h1
    rw [Nat.cast_add, Nat.cast_mul] at h2
    show ((pu % (cols * rows) : Nat) : Int) - _ = _
    linarith
  · exact Nat.div_lt_of_lt_mul (by rw [Nat.mul_comm]; exact hpu)
  · exact Nat.mod_lt _ hc
  · exact Nat.div_lt_of_lt_mul hmodlt
  · have h1 := Nat.div_add_mod pu (cols * rows)
    have h2 := Nat.div_add_mod (pu % (cols * rows)) cols
    rw [Nat.mul_comm] at h1 h2
    omega

/-- C23: each chunk of each active tile is hit by exactly one unit. -/
theorem c23_bijective_partial (nTiles cols rows : Nat) (hc : 1 ≤ cols) (hr : 1 ≤ rows)
    (hmax : nTiles * (cols * rows) ≤ 2 ^ 24) (fl : Nat → Int)
    (hfl : ∀ pu, pu < nTiles * (cols * rows) →
      Float.DivFloor 24 pu ((cols * rows : Nat) : Int) (fl pu))
    (tile cx cy : Nat) (ht : tile < nTiles) (hx : cx < cols) (hy : cy < rows) :
    ∃ pu, (pu < nTiles * (cols * rows) ∧
      unitToChunk cols rows pu (fl pu) = ((tile : Int), (cx : Int), (cy : Int))) ∧
      ∀ pu', pu' < nTiles * (cols * rows) →
        unitToChunk cols rows pu' (fl pu') = ((tile : Int), (cx : Int), (cy : Int)) → pu' = pu := by
  have hchunk : cy * cols + cx < cols * rows := by nlinarith
  have hlt : tile * (cols * rows) + cy * cols + cx < nTiles * (cols * rows) := by
    have : (tile + 1) * (cols * rows) ≤ nTiles * (cols * rows) := Nat.mul_le_mul_right _ ht
    rw [Nat.add_mul] at this
    omega
  have huniq : ∀ pu', pu' < nTiles * (cols * rows) →
      ∃ t' x' y' : Nat, unitToChunk cols rows pu' (fl pu') = ((t' : Int), (x' : Int), (y' : Int)) ∧
        x' < cols ∧ y' < rows ∧ pu' = t' * (cols * rows) + y' * cols + x' := by
    intro pu' hpu'
    obtain ⟨t', x', y', h1, _, h2, h3, h4⟩ :=
      c23_unit_to_chunk_partial nTiles cols rows pu' hc hr hpu' hmax _ (hfl pu' hpu')
    exact ⟨t', x', y', h1, h2, h3, h4⟩
  refine ⟨tile * (cols * rows) + cy * cols + cx, ⟨hlt, ?_⟩, ?_⟩
  · obtain ⟨t', x', y', h1, h2, h3, h4⟩ := huniq _ hlt
    have hchunk' : y' * cols + x' < cols * rows := by nlinarith
    have e1 : t' = tile := by
      have ha : (tile * (cols * rows) + (cy * cols + cx)) / (cols * rows) = tile := by
        rw [Nat.mul_comm tile, Nat.mul_add_div (by omega), Nat.div_eq_of_lt hchunk]; simp
      have hb : (t' * (cols * rows) + (y' * cols + x')) / (cols * rows) = t' := by
        rw [Nat.mul_comm t', Nat.mul_add_div (by omega), Nat.div_eq_of_lt hchunk']; simp
      rw [← hb, ← ha]
      congr 1
      omega
    subst e1
    have e2 : cy * cols + cx = y' * cols + x' := by omega
    have e3 : cy = y' := by
      have ha : (cy * cols + cx) / cols = cy := by
        rw [Nat.mul_comm cy, Nat.mul_add_div (by omega), Nat.div_eq_of_lt hx]; simp
      have hb : (y' * cols + x') / cols = y' := by
        rw [Nat.mul_comm y', Nat.mul_add_div (by omega), Nat.div_eq_of_lt h2]; simp
      rw [← hb, ← ha, e2]
    subst e3
    have e4 : cx = x' := by omega
    subst e4
    exact h1
  · intro pu' hpu' h
    obtain ⟨t', x', y', h1, h2, h3, h4⟩ := huniq _ hpu'
    rw [h1] at h
    simp only [Prod.mk.injEq, Nat.cast_inj] at h
    obtain ⟨rfl, rfl, rfl⟩ := h
    exact h4

/-- Witness: unit 7 with 2 chunks per tile. -/
example : Float.DivFloor 24 7 2 3 ∧ unitToChunk 2 1 7 3 = (3, 1, 0) := by
  refine ⟨⟨7, 2, 7 / 2, Float.nearest_of_rep (Float.rep_int (k := 7) (by norm_num)),
    Float.nearest_of_rep (Float.rep_int (k := 2) (by norm_num)),
    Float.nearest_of_rep ⟨7, -1, by norm_num, by norm_num⟩, by norm_num⟩, by decide⟩

/-- C23 is violated beyond: with 4 chunks per tile, unit 2^25 + 3 is assigned to the wrong tile
and to chunk column -1, because its number is not representable in single precision. -/
theorem c23_float_violated (t : Int) (ht : Float.DivFloor 24 (2 ^ 25 + 3) 4 t) :
    unitToChunk 2 2 (2 ^ 25 + 3) t = (2 ^ 23 + 1, -1, 0) := by
  obtain ⟨fa, fb, r, h1, h2, h3, rfl⟩ := ht
  have e2 := Float.eq_of_nearest_rep (p := 24) (Float.rep_int (k := 4) (by norm_num)) h2
  have hrep : Float.Rep 24 (2 ^ 25 + 4 : ℚ) := ⟨2 ^ 23 + 1, 2, by norm_num, by norm_num⟩
  have e1 : fa = 2 ^ 25 + 4 := by
    have hmin := h1.2 _ hrep
    obtain ⟨m, e, hm, hfa⟩ := h1.1
    have hd : |((2 ^ 25 + 3 : ℤ) : ℚ) - (2 ^ 25 + 4)| = 1 := by norm_num
    rw [hd, abs_le] at hmin
    push_cast at hmin
    have hlow : (2 ^ 25 + 2 : ℚ) ≤ fa := by linarith [hmin.2]
    have hhigh : fa ≤ 2 ^ 25 + 4 := by linarith [hmin.1]
    have he : 2 ≤ e := by
      by_contra hc
      have he1 : e ≤ 1 := by omega
      have hm' : (m : ℚ) ≤ 2 ^ 24 := by
        have := (abs_le.1 hm).2
        exact_mod_cast this
      have h2e : (2 : ℚ) ^ e ≤ 2 ^ (1 : ℤ) := zpow_le_zpow_right₀ (by norm_num) he1
      have hpos : (0 : ℚ) < 2 ^ e := by positivity
      have : fa ≤ 2 ^ 24 * 2 ^ (1 : ℤ) := by
        rw [hfa]
        calc (m : ℚ) * 2 ^ e ≤ 2 ^ 24 * 2 ^ e := by
              exact mul_le_mul_of_nonneg_right hm' hpos.le
          _ ≤ 2 ^ 24 * 2 ^ (1 : ℤ) := by
              exact mul_le_mul_of_nonneg_left h2e (by positivity)
      norm_num at this hlow
      linarith
    obtain ⟨j, hj⟩ : ∃ j : ℕ, e = 2 + j := ⟨(e - 2).toNat, by omega⟩
    have hint : fa = ((m * 2 ^ j * 4 : ℤ) : ℚ) := by
      rw [hfa, hj, zpow_add₀ (by norm_num), zpow_natCast]
      push_cast
      norm_num
      ring
    rw [hint] at hlow hhigh ⊢
    have hlow' : (2 ^ 25 + 2 : ℤ) ≤ m * 2 ^ j * 4 := by exact_mod_cast hlow
    have hhigh' : m * 2 ^ j * 4 ≤ (2 ^ 25 + 4 : ℤ) := by exact_mod_cast hhigh
    have : m * 2 ^ j * 4 = (2 ^ 25 + 4 : ℤ) := by omega
    rw [this]; norm_num
  rw [e1, e2] at h3
  have hr : Float.Rep 24 ((2 ^ 25 + 4 : ℚ) / ((4 : ℤ) : ℚ)) := ⟨2 ^ 23 + 1, 0, by norm_num, by norm_num⟩
  rw [Float.eq_of_nearest_rep hr h3]
  have hfl : ⌊((2 ^ 25 + 4 : ℚ) / ((4 : ℤ) : ℚ))⌋ = 2 ^ 23 + 1 := by
    rw [Int.floor_eq_iff]; norm_num
  rw [hfl]
  decide

/-! ## C24 -/

/-- C24: the decision itself. -/
theorem c24_exit_code (ibytes obytes : Nat) (sampling strict : Bool) :
    handleNoIo ibytes obytes sampling strict = true ↔
      strict = true ∧ (ibytes = 0 ∨ (sampling = false ∧ obytes = 0)) := by
  unfold handleNoIo
  cases sampling <;> cases strict <;> simp

theorem bytesStream_zero (evs : List ByteEvent) :
    bytesStream evs = 0 ↔ ∀ e ∈ evs, ∀ b, e = some b → b = 0 := by
  have key : ∀ (evs : List ByteEvent) (acc : Nat), evs.foldl (fun acc e => acc + e.getD 0) acc = 0 ↔
      acc = 0 ∧ ∀ e ∈ evs, ∀ b, e = some b → b = 0 := by
    intro evs
    induction evs with
    | nil => intro acc; simp
    | cons e es ih =>
      intro acc
      rw [List.foldl_cons, ih]
      cases e with
      | none => simp
      | some b =>
        simp only [Option.getD_some, List.mem_cons, forall_eq_or_imp, Option.some.injEq,
          forall_eq', and_assoc.symm]
        constructor
        · rintro ⟨h1, h2⟩; exact ⟨⟨by omega, by omega⟩, h2⟩
        · rintro ⟨⟨h1, h2⟩, h3⟩; exact ⟨by omega, h3⟩
  unfold bytesStream
  rw [key]; simp

/-- C24 (streaming mode): the program fails because of missing I/O iff the user asked for it and
no unit read any data, or no unit wrote any data although output files are expected. -/
theorem c24_stream_exit_partial (ins outs : List ByteEvent) (sampling strict : Bool) :
    handleNoIo (bytesStream ins) (bytesStream outs) sampling strict = true ↔
      strict = true ∧ ((∀ e ∈ ins, ∀ b, e = some b → b = 0) ∨
        (sampling = false ∧ ∀ e ∈ outs, ∀ b, e = some b → b = 0)) := by
  rw [c24_exit_code, bytesStream_zero, bytesStream_zero]

/-- C24 is violated without streaming: the byte counters are overwritten by each unit, so if the
last tile is empty the program reports missing input although data were read and written. -/
theorem c24_sequential_violated : ∃ ins outs : List ByteEvent,
    (∃ b, some b ∈ ins ∧ 0 < b) ∧ (∃ b, some b ∈ outs ∧ 0 < b) ∧
    handleNoIo (bytesSequential ins) (bytesSequential outs) false true = true :=
  ⟨[some 1000, some 0], [some 500, none], ⟨1000, by decide⟩, ⟨500, by decide⟩, by decide⟩

example : handleNoIo (bytesStream [some 1000, none, some 0]) (bytesStream [some 500, none]) false
    true = false := by decide

end Verif.Pipeline
