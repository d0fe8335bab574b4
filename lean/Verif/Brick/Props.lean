import Mathlib.Tactic.NormNum
import Mathlib.Tactic.Positivity
import Verif.Brick.Lemmas
import Verif.Qai.Props

/-!
# Theorems about image bricks: C25, C26, C27, C28, C47
-/

namespace Verif.Brick

open Spec

/-! ## C25 -/

theorem crop_correct {V : Type} (zero : V) (dt : DataType) (nx ny pix : Nat) (band : List V)
    (hl : band.length = nx * ny) (hx : 2 * pix < nx) (hy : 2 * pix < ny)
    (hi : ∀ i j, i < ny - 2 * pix → j < nx - 2 * pix → cropIndex dt nx (nx - 2 * pix) pix (i, j) =
      (i * (nx - 2 * pix) + j, (i + pix) * nx + (j + pix))) :
    ∃ out, cropBand zero dt nx ny pix band = some out ∧ Cropped nx ny pix band out := by
  have hmem : ∀ q ∈ (cells (ny - 2 * pix) (nx - 2 * pix)).map (cropIndex dt nx (nx - 2 * pix) pix),
      ∃ i j, i < ny - 2 * pix ∧ j < nx - 2 * pix ∧
        q = (i * (nx - 2 * pix) + j, (i + pix) * nx + (j + pix)) := by
    intro q hq
    obtain ⟨⟨i, j⟩, h, rfl⟩ := List.mem_map.1 hq
    rw [mem_cells] at h
    exact ⟨i, j, h.1, h.2, hi i j h.1 h.2⟩
  obtain ⟨out, e, l, -, h⟩ := copyPairs_some band
    ((cells (ny - 2 * pix) (nx - 2 * pix)).map (cropIndex dt nx (nx - 2 * pix) pix))
    (List.replicate ((nx - 2 * pix) * (ny - 2 * pix)) zero) (by
      intro q hq
      obtain ⟨i, j, h1, h2, rfl⟩ := hmem q hq
      constructor
      · simpa using row_major_lt h1 h2
      · rw [hl]; exact row_major_lt (by omega) (by omega)) (by
      rw [List.map_map]
      refine List.Nodup.map_on ?_ (cells_nodup _ _)
      rintro ⟨i, j⟩ h1 ⟨i', j'⟩ h2 h
      rw [mem_cells] at h1 h2
      simp only [Function.comp, hi i j h1.1 h1.2, hi i' j' h2.1 h2.2] at h
      have := row_major_inj h1.2 h2.2 h
      rw [this.1, this.2])
  refine ⟨out, e, by simpa using l, ?_⟩
  intro r c h1 h2 h3 h4
  have := h ((r - pix) * (nx - 2 * pix) + (c - pix), (r - pix + pix) * nx + (c - pix + pix))
    (List.mem_map.2 ⟨(r - pix, c - pix), mem_cells.2 ⟨by omega, by omega⟩,
      hi _ _ (by omega) (by omega)⟩)
  simp only [Nat.sub_add_cancel h1, Nat.sub_add_cancel h3] at this
  exact this

/-- C25 (partial): for 16-bit signed images cropping returns exactly the inner part, for all
image sizes, radii and values. For the other data types this holds only for radius zero pixels. -/
theorem c25_crop_partial {V : Type} (zero : V) (dt : DataType) (nx ny pix : Nat) (band : List V)
    (hl : band.length = nx * ny) (hx : 2 * pix < nx) (hy : 2 * pix < ny)
    (h : dt = .short ∨ pix = 0) :
    ∃ out, cropBand zero dt nx ny pix band = some out ∧ Cropped nx ny pix band out := by
  apply crop_correct zero dt nx ny pix band hl hx hy
  intro i j _ _
  rcases h with rfl | rfl
  · rfl
  · cases dt <;> simp [cropIndex]

example : ∃ out, cropBand 0 .short 5 4 1 (List.range 20) = some out ∧ out = [6, 7, 8, 11, 12, 13] :=
  ⟨_, rfl, by decide⟩

example : (List.range 20).length = 5 * 4 ∧ 2 * 1 < 5 ∧ 2 * 1 < 4 := by decide

/-- C25 does not hold for the other data types: cropping by at least one pixel writes outside of
the new image, whatever the size of the image. -/
theorem c25_other_types_violated {V : Type} (zero : V) (dt : DataType) (hdt : dt ≠ .short)
    (nx ny pix : Nat) (band : List V) (hx : 2 * pix < nx) (hy : 2 * pix < ny) (hp : 0 < pix) :
    cropBand zero dt nx ny pix band = none := by
  apply copyPairs_none
  refine ⟨_, List.mem_map.2 ⟨(ny - 2 * pix - 1, nx - 2 * pix - 1), mem_cells.2 ⟨by omega, by omega⟩, rfl⟩, ?_⟩
  have e : (cropIndex dt nx (nx - 2 * pix) pix (ny - 2 * pix - 1, nx - 2 * pix - 1)).1 =
      (ny - 2 * pix - 1 + pix) * nx + (nx - 2 * pix - 1 + pix) := by
    cases dt <;> first | exact absurd rfl hdt | rfl
  rw [e, List.length_replicate]
  have h1 : (ny - 2 * pix) * nx ≤ (ny - 2 * pix - 1 + pix) * nx := Nat.mul_le_mul_right _ (by omega)
  have h2 : (nx - 2 * pix) * (ny - 2 * pix) ≤ (ny - 2 * pix) * nx := by
    rw [Nat.mul_comm]; exact Nat.mul_le_mul_left _ (by omega)
  omega

/-! ## C26 -/

/-- The chunk that holds row `r`, column `c`. -/
theorem covers_iff (cx cy x y r c : Nat) (hx : 0 < cx) (hy : 0 < cy) :
    ((y * cy ≤ r ∧ r < y * cy + cy) ∧ (x * cx ≤ c ∧ c < x * cx + cx)) ↔ y = r / cy ∧ x = c / cx := by
  have key : ∀ a b n, 0 < n → ((a * n ≤ b ∧ b < a * n + n) ↔ a = b / n) := by
    intro a b n hn
    constructor
    · rintro ⟨h1, h2⟩
      symm
      rw [Nat.div_eq_iff hn]
      omega
    · rintro rfl
      have := Nat.div_add_mod b n
      have h2 := Nat.mod_lt b hn
      rw [Nat.mul_comm] at this
      omega
  rw [key _ _ _ hy, key _ _ _ hx]

theorem writeChunks_update {V : Type} (zero : V) (cols rows cx cy : Nat) (hx : 0 < cx) (hy : 0 < cy)
    (ws : List (ChunkWrite V)) (img : Image V)
    (hv : ∀ w ∈ ws, (w.x < cols ∧ w.y < rows) ∧ (0 < w.x ∨ 0 < w.y))
    (hn : (ws.map fun w => (w.x, w.y)).Nodup) :
    ∃ img', writeChunks zero cols rows cx cy (some img) ws = some (some img') ∧
      (∀ w ∈ ws, ∀ i j, i < cy → j < cx → img' (w.y * cy + i) (w.x * cx + j) = w.pixels (i * cx + j)) ∧
      ∀ r c, (∀ w ∈ ws, ¬ (w.x = c / cx ∧ w.y = r / cy)) → img' r c = img r c := by
  induction ws generalizing img with
  | nil => exact ⟨img, rfl, by simp, by simp⟩
  | cons w ws ih =>
    simp only [List.map_cons, List.nodup_cons] at hn
    have hw := hv w (by simp)
    obtain ⟨img', e, h1, h2⟩ := ih (writeBlock cx cy w img) (fun w' h' => hv w' (by simp [h'])) hn.2
    refine ⟨img', ?_, ?_, ?_⟩
    · have : writeChunk zero cols rows cx cy (some img) w = some (some (writeBlock cx cy w img)) := by
        unfold writeChunk
        rw [if_neg (by omega)]
        simp only [gt_iff_lt, hw.2, if_true]
      simp only [writeChunks, this, e]
    · intro w' hw' i j hi hj
      rcases List.mem_cons.1 hw' with rfl | hw'
      · rw [h2]
        · unfold writeBlock
          simp only
          rw [if_pos ⟨⟨by omega, by omega⟩, by omega, by omega⟩]
          congr 2 <;> (try congr 1) <;> omega
        · rintro w'' h'' ⟨e1, e2⟩
          apply hn.1
          have f := (covers_iff cx cy w'.x w'.y (w'.y * cy + i) (w'.x * cx + j) hx hy).1
            ⟨⟨by omega, by omega⟩, by omega, by omega⟩
          refine List.mem_map.2 ⟨w'', h'', ?_⟩
          rw [e1, e2, ← f.1, ← f.2]
      · exact h1 w' hw' i j hi hj
    · intro r c hc
      rw [h2 r c fun w' h' => hc w' (by simp [h'])]
      unfold writeBlock
      simp only
      apply if_neg
      intro h
      have := (covers_iff cx cy w.x w.y r c hx hy).1 h
      exact hc w (by simp) ⟨this.2, this.1⟩

theorem writeChunk_first {V : Type} (zero : V) (cols rows cx cy : Nat) (hc : 0 < cols) (hr : 0 < rows)
    (file : Option (Image V)) (px : Nat → V) :
    writeChunk zero cols rows cx cy file ⟨0, 0, px⟩ =
      some (some (writeBlock cx cy ⟨0, 0, px⟩ fun _ _ => zero)) := by
  unfold writeChunk
  rw [if_neg (by simp only [ge_iff_le, not_or, not_le]; exact ⟨hc, hr⟩)]
  cases file <;> simp

/-- C26 (partial): if chunk (0,0) is written first and the others follow in any order, then the
output file holds each written chunk's pixels at its place, and the fill value everywhere else,
whatever file existed before. Missing: chunk (0,0) skipped, see `c26_stale_violated`. -/
theorem c26_chunks_assembled_partial {V : Type} (zero : V) (cols rows cx cy : Nat) (hx : 0 < cx)
    (hy : 0 < cy) (hc : 0 < cols) (hr : 0 < rows) (before : Option (Image V)) (px : Nat → V)
    (ws : List (ChunkWrite V)) (hv : ∀ w ∈ ws, w.x < cols ∧ w.y < rows)
    (hn : ((⟨0, 0, px⟩ :: ws : List (ChunkWrite V)).map fun w => (w.x, w.y)).Nodup) :
    ∃ img, writeChunks zero cols rows cx cy before (⟨0, 0, px⟩ :: ws) = some (some img) ∧
      (∀ w ∈ (⟨0, 0, px⟩ :: ws : List (ChunkWrite V)), ∀ i j, i < cy → j < cx →
        img (w.y * cy + i) (w.x * cx + j) = w.pixels (i * cx + j)) ∧
      ∀ r c, (∀ w ∈ (⟨0, 0, px⟩ :: ws : List (ChunkWrite V)), ¬ (w.x = c / cx ∧ w.y = r / cy)) →
        img r c = zero := by
  simp only [List.map_cons, List.nodup_cons] at hn
  obtain ⟨img, e, h1, h2⟩ := writeChunks_update zero cols rows cx cy hx hy ws
    (writeBlock cx cy ⟨0, 0, px⟩ fun _ _ => zero) (by
      intro w hw
      refine ⟨hv w hw, ?_⟩
      by_contra hneg
      simp only [not_or, not_lt, Nat.le_zero] at hneg
      exact hn.1 (List.mem_map.2 ⟨w, hw, by rw [hneg.1, hneg.2]⟩)) hn.2
  refine ⟨img, ?_, ?_, ?_⟩
  · simp only [writeChunks, writeChunk_first zero cols rows cx cy hc hr, e]
  · intro w hw i j hi hj
    rcases List.mem_cons.1 hw with rfl | hw
    · rw [h2]
      · simp [writeBlock, hi, hj]
      · rintro w h ⟨e1, e2⟩
        apply hn.1
        refine List.mem_map.2 ⟨w, h, ?_⟩
        simp only [Nat.zero_mul, Nat.zero_add, Nat.div_eq_of_lt hi, Nat.div_eq_of_lt hj] at e1 e2
        rw [e1, e2]
    · exact h1 w hw i j hi hj
  · intro r c h
    rw [h2 r c fun w hw => h w (by simp [hw])]
    unfold writeBlock
    simp only
    apply if_neg
    intro h'
    have := (covers_iff cx cy 0 0 r c hx hy).1 h'
    exact h ⟨0, 0, px⟩ (by simp) ⟨this.2, this.1⟩

/-- C26 (partial): a complete tile does not depend on the previous file: all pixels of the file
are those of the chunks. -/
theorem c26_complete_tile_partial {V : Type} (zero : V) (cols rows cx cy : Nat) (hx : 0 < cx)
    (hy : 0 < cy) (hc : 0 < cols) (hr : 0 < rows) (before : Option (Image V))
    (px : Nat → Nat → Nat → V) (order : List (Nat × Nat))
    (ho : order.Perm ((List.range cols).flatMap fun x => (List.range rows).map fun y => (x, y)))
    (h0 : order.head? = some (0, 0)) :
    ∃ img, writeChunks zero cols rows cx cy before
        (order.map fun c => ⟨c.1, c.2, px c.1 c.2⟩) = some (some img) ∧
      ∀ r c, r < rows * cy → c < cols * cx →
        img r c = px (c / cx) (r / cy) (r % cy * cx + c % cx) := by
  obtain ⟨rest, rfl⟩ : ∃ rest, order = (0, 0) :: rest := by
    cases order with
    | nil => simp at h0
    | cons a l => simp only [List.head?_cons, Option.some.injEq] at h0; exact ⟨l, by rw [h0]⟩
  have mem : ∀ x y, (x, y) ∈ (0, 0) :: rest ↔ x < cols ∧ y < rows := by
    intro x y; rw [ho.mem_iff]; simp
  have nodup : ((0, 0) :: rest : List (Nat × Nat)).Nodup := by
    rw [ho.nodup_iff]
    exact cells_nodup cols rows
  obtain ⟨img, e, h1, -⟩ := c26_chunks_assembled_partial zero cols rows cx cy hx hy hc hr before
    (px 0 0) (rest.map fun c => ⟨c.1, c.2, px c.1 c.2⟩) (by
      intro w hw
      obtain ⟨⟨x, y⟩, h, rfl⟩ := List.mem_map.1 hw
      exact (mem x y).1 (by simp [h])) (by
      simpa [List.map_map, Function.comp_def] using nodup)
  refine ⟨img, e, ?_⟩
  intro r c hr' hc'
  have hm := (mem (c / cx) (r / cy)).2 ⟨by rw [Nat.div_lt_iff_lt_mul hx]; exact hc',
    by rw [Nat.div_lt_iff_lt_mul hy]; exact hr'⟩
  have := h1 ⟨c / cx, r / cy, px (c / cx) (r / cy)⟩ (by
    rw [List.mem_cons] at hm ⊢
    rcases hm with hm | hm
    · left
      simp only [Prod.mk.injEq] at hm
      rw [hm.1, hm.2]
    · right; exact List.mem_map.2 ⟨_, hm, rfl⟩) (r % cy) (c % cx) (Nat.mod_lt _ hy) (Nat.mod_lt _ hx)
  simp only [Nat.div_add_mod'] at this
  exact this

example : ([(0, 0), (1, 0), (0, 1), (1, 1)] : List (Nat × Nat)).Perm
    ((List.range 2).flatMap fun x => (List.range 2).map fun y => (x, y)) := by decide

/-- C26 does not hold if chunk (0,0) is skipped: the pixels of every chunk that is not written
keep the content of the file that existed before. -/
theorem c26_stale_violated {V : Type} (zero : V) (cols rows cx cy : Nat) (hx : 0 < cx)
    (hy : 0 < cy) (old : Image V) (ws : List (ChunkWrite V))
    (hv : ∀ w ∈ ws, (w.x < cols ∧ w.y < rows) ∧ ¬ (w.x = 0 ∧ w.y = 0))
    (hn : (ws.map fun w => (w.x, w.y)).Nodup) :
    ∃ img, writeChunks zero cols rows cx cy (some old) ws = some (some img) ∧
      ∀ r c, r < cy → c < cx → img r c = old r c := by
  obtain ⟨img, e, -, h2⟩ := writeChunks_update zero cols rows cx cy hx hy ws old
    (fun w hw => ⟨(hv w hw).1, by have := (hv w hw).2; omega⟩) hn
  refine ⟨img, e, fun r c hr hc => h2 r c ?_⟩
  intro w hw
  rw [Nat.div_eq_of_lt hr, Nat.div_eq_of_lt hc]
  exact (hv w hw).2

example : ∃ img, writeChunks 0 2 1 1 1 (some fun _ _ => 7) [⟨1, 0, fun _ => 3⟩] = some (some img) ∧
    img 0 0 = 7 ∧ img 0 1 = 3 := ⟨_, rfl, by decide, by decide⟩

/-- An invalid chunk number is refused in all states. -/
theorem c26_invalid_chunk {V : Type} (zero : V) (cols rows cx cy : Nat) (file : Option (Image V))
    (w : ChunkWrite V) : writeChunk zero cols rows cx cy file w = none ↔ cols ≤ w.x ∨ rows ≤ w.y := by
  unfold writeChunk
  simp only [ge_iff_le, ite_eq_left_iff, reduceCtorEq, imp_false, not_not]

/-! ## C27 -/

/-- C27: where only one of the two values is valid, this value is kept; where none is valid,
the pixel stays invalid - in all modes. -/
theorem c27_one_valid (mode : Mode) (nodata v : ℤ) :
    mosaicPixel mode nodata v nodata = v ∧ mosaicPixel mode nodata nodata v = v := by
  unfold mosaicPixel
  refine ⟨?_, ?_⟩
  · simp
  · by_cases h : v = nodata <;> simp [h]

/-- C27, update: any number of writes gives the last valid value, nodata only if there never was
a valid one. -/
theorem c27_update_history (nodata : ℤ) (file : Option ℤ) (ws : List ℤ)
    (h : file ≠ none ∨ ws ≠ []) :
    mosaicHistory .update nodata file ws = some (lastValid nodata (file.toList ++ ws)) := by
  have step : ∀ now old, mosaicPixel .update nodata now old = if now ≠ nodata then now else old := by
    intro now old
    unfold mosaicPixel
    by_cases h1 : now = nodata <;> by_cases h2 : old = nodata <;> simp [h1, h2]
  have single : ∀ a, lastValid nodata [a] = a := by
    intro a; by_cases ha : a = nodata <;> simp [lastValid, ha]
  have pre : ∀ (a b : ℤ) (l : List ℤ), lastValid nodata (a :: b :: l) =
      lastValid nodata ((if b ≠ nodata then b else a) :: l) := by
    intro a b l
    by_cases hb : b = nodata
    · simp [lastValid, hb, List.filter_cons]
    · by_cases ha : a = nodata
      · simp [lastValid, hb, ha]
      · simp [lastValid, hb, ha]
  have main : ∀ (ws : List ℤ) (old : ℤ),
      mosaicHistory .update nodata (some old) ws = some (lastValid nodata (old :: ws)) := by
    intro ws
    induction ws with
    | nil => intro old; rw [single]; rfl
    | cons w ws ih => intro old; rw [mosaicHistory, ih, step, pre]
  cases file with
  | some old => exact main ws old
  | none =>
    cases ws with
    | nil => simp at h
    | cons w ws => exact main ws w

example : mosaicHistory .update (-9999) none [5, -9999, 7, -9999] = some 7 := by decide

/-- C27, merge: where both values are valid the result is the average, cut to an integer between
the two. -/
theorem c27_merge_average (nodata now old : ℤ) (h1 : now ≠ nodata) (h2 : old ≠ nodata) :
    |2 * mosaicPixel .merge nodata now old - (now + old)| ≤ 1 ∧
    min now old ≤ mosaicPixel .merge nodata now old ∧
    mosaicPixel .merge nodata now old ≤ max now old := by
  have e : mosaicPixel .merge nodata now old = Int.tdiv (now + old) 2 := by
    unfold mosaicPixel; simp [h1, h2]
  rw [e, abs_le]
  have := Int.mul_tdiv_add_tmod (now + old) 2
  have r1 := Int.tmod_lt_of_pos (now + old) (b := 2) (by omega)
  have r2 : -2 < (now + old).tmod 2 := Int.lt_tmod_of_pos _ (by omega)
  omega

example : mosaicPixel .merge (-9999) 10 21 = 15 ∧ mosaicPixel .merge (-9999) (-10) (-21) = -15 := by
  decide

/-- C27, merge (partial): if no valid value is smaller than nodata, a pixel of the file is valid
if and only if a valid value was ever written. -/
theorem c27_merge_valid_partial (nodata : ℤ) (ws : List ℤ) (hne : ws ≠ [])
    (hw : ∀ w ∈ ws, nodata ≤ w) :
    ∃ v, mosaicHistory .merge nodata none ws = some v ∧ nodata ≤ v ∧
      (v ≠ nodata ↔ ∃ w ∈ ws, w ≠ nodata) := by
  have main : ∀ (ws : List ℤ) (old : ℤ), nodata ≤ old → (∀ w ∈ ws, nodata ≤ w) →
      ∃ v, mosaicHistory .merge nodata (some old) ws = some v ∧ nodata ≤ v ∧
      (v ≠ nodata ↔ old ≠ nodata ∨ ∃ w ∈ ws, w ≠ nodata) := by
    intro ws
    induction ws with
    | nil => intro old ho _; exact ⟨old, rfl, ho, by simp⟩
    | cons w ws ih =>
      intro old ho hw
      have hw' := hw w (by simp)
      have key : nodata ≤ mosaicPixel .merge nodata w old ∧
          (mosaicPixel .merge nodata w old ≠ nodata ↔ old ≠ nodata ∨ w ≠ nodata) := by
        by_cases h1 : w = nodata
        · subst h1; rw [(c27_one_valid _ _ _).2]; simp [ho]
        · by_cases h2 : old = nodata
          · subst h2; rw [(c27_one_valid _ _ _).1]; simp [hw']
          · have := c27_merge_average nodata w old h1 h2
            constructor
            · omega
            · constructor
              · intro _; exact Or.inl h2
              · intro _; omega
      obtain ⟨v, e, h1, h2⟩ := ih _ key.1 fun w' h' => hw w' (by simp [h'])
      refine ⟨v, e, h1, h2.trans ?_⟩
      rw [key.2]
      simp [or_assoc]
  cases ws with
  | nil => exact absurd rfl hne
  | cons w ws =>
    obtain ⟨v, e, h1, h2⟩ := main ws w (hw w (by simp)) fun w' h' => hw w' (by simp [h'])
    exact ⟨v, e, h1, by simpa using h2⟩

example : (∀ w ∈ [(-9999 : ℤ), 12, -9999, 300], -9999 ≤ w) ∧
    mosaicHistory .merge (-9999) none [-9999, 12, -9999, 300] = some 156 := by decide

/-- C27 does not hold for values below nodata: for every nodata value there are two valid values
whose merge is nodata. -/
theorem c27_merge_lost_violated (nodata : ℤ) : ∃ now old, now ≠ nodata ∧ old ≠ nodata ∧
    mosaicPixel .merge nodata now old = nodata := by
  refine ⟨nodata + 1, nodata - 1, by omega, by omega, ?_⟩
  unfold mosaicPixel
  rw [if_pos ⟨by omega, by omega⟩]
  simp only
  have : nodata + 1 + (nodata - 1) = nodata * 2 := by ring
  rw [this, Int.mul_tdiv_cancel _ (by omega)]

/-- C27, QAI merge: two valid quality values (bit 15 is never used) give a valid one in which each
flag combines the two. -/
theorem c27_qai_merge (now old : BitVec 16) (h15 : now.getLsbD 15 = false) (h15' : old.getLsbD 15 = false)
    (h1 : now ≠ 1#16) (h2 : old ≠ 1#16) :
    ∃ m : BitVec 16, mosaicPixel .qaiMerge 1 now.toInt old.toInt = m.toInt ∧ m ≠ 1#16 ∧
      (∀ f, f ≠ .off → f ≠ .ill →
        Qai.Spec.value f m = max (Qai.Spec.value f now) (Qai.Spec.value f old)) ∧
      Qai.Spec.value .off m = min (Qai.Spec.value .off now) (Qai.Spec.value .off old) ∧
      Qai.Spec.value .ill m = min (Qai.Spec.value .ill now) (Qai.Spec.value .ill old) := by
  have ne : ∀ v : BitVec 16, v ≠ 1#16 → v.toInt ≠ 1 := by
    intro v hv h
    exact hv (BitVec.eq_of_toInt_eq (by rw [h]; decide))
  have e : mosaicPixel .qaiMerge 1 now.toInt old.toInt = (Qai.mergeCall now old).toInt := by
    unfold mosaicPixel
    rw [if_pos ⟨ne _ h1, ne _ h2⟩]
    simp
  obtain ⟨a, b, c⟩ := Qai.c08_most_restrictive_partial now now old
  have isOne : ∀ v : BitVec 16, v.getLsbD 15 = false → Qai.Spec.value .off v = 1 →
      (∀ f, f ≠ .off → Qai.Spec.value f v = 0) → v = 1#16 := by
    intro v hv ho hf
    apply Qai.eq_of_flags
    · intro f
      rw [Qai.get_eq_value, Qai.get_eq_value]
      by_cases hfo : f = .off
      · subst hfo; rw [ho]; decide
      · rw [hf f hfo]; cases f <;> first | exact absurd rfl hfo | decide
    · rw [hv]; decide
  refine ⟨_, e, ?_, a, b, c⟩
  intro hm
  have hoff : Qai.Spec.value .off (Qai.mergeQai now now old) = 1 := by
    rw [show Qai.mergeQai now now old = 1#16 from hm]; decide
  have hrest : ∀ f, f ≠ .off → Qai.Spec.value f (Qai.mergeQai now now old) = 0 := by
    intro f hf
    rw [show Qai.mergeQai now now old = 1#16 from hm]
    cases f <;> first | exact absurd rfl hf | decide
  have lt2 : ∀ v, Qai.Spec.value .off v < 2 := fun v => Nat.mod_lt _ (by decide)
  have l1 := lt2 now
  have l2 := lt2 old
  have hill := hrest .ill (by decide)
  rw [c] at hill
  rw [b] at hoff
  rcases Nat.le_total (Qai.Spec.value .ill now) (Qai.Spec.value .ill old) with hle | hle
  · apply h1
    apply isOne now h15 (by omega)
    intro f hf
    by_cases hfi : f = .ill
    · subst hfi; omega
    · have := hrest f hf; rw [a f hf hfi] at this; omega
  · apply h2
    apply isOne old h15' (by omega)
    intro f hf
    by_cases hfi : f = .ill
    · subst hfi; omega
    · have := hrest f hf; rw [a f hf hfi] at this; omega

example : mosaicPixel .qaiMerge 1 2 8 = 10 := by decide

/-! ## C28 -/

theorem run_append (ok : Nat → Bool) (a b : List Op) (i : Nat) (held : List String) :
    run ok i (a ++ b) held =
      if (run ok i a held).1 then run ok (i + a.length) b (run ok i a held).2
      else run ok i a held := by
  induction a generalizing i held with
  | nil => simp [run]
  | cons o a ih =>
    have hi : i + 1 + a.length = i + (a.length + 1) := by omega
    cases o with
    | lock n =>
      by_cases h : ok i <;> simp [run, h, ih, hi]
    | unlock =>
      rw [List.cons_append, run, ih, List.length_cons, hi]
      rfl
    | may =>
      by_cases h : ok i <;> simp [run, h, ih, hi]

theorem run_mays (ok : Nat → Bool) (k i : Nat) (held : List String) :
    (run ok i (List.replicate k .may) held).2 = held := by
  induction k generalizing i with
  | zero => rfl
  | succ k ih =>
    rw [List.replicate_succ]
    by_cases h : ok i <;> simp [run, h, ih]

theorem run_file (ok : Nat → Bool) (name prov : String) (k : Nat) (pv : Bool) (i : Nat) :
    ((run ok i (fileOps name prov k pv) []).1 = true → (run ok i (fileOps name prov k pv) []).2 = []) ∧
    (run ok i (fileOps name prov k pv) []).2.length ≤ 1 := by
  have tail : ∀ i held, held.length ≤ 1 →
      ((run ok i ([.unlock] ++ (if pv then [.lock prov, .may, .unlock] else [])) held).1 = true →
        (run ok i ([.unlock] ++ (if pv then [.lock prov, .may, .unlock] else [])) held).2 = []) ∧
      (run ok i ([.unlock] ++ (if pv then [.lock prov, .may, .unlock] else [])) held).2.length ≤ 1 := by
    intro i held hh
    have ht : held.tail = [] := by
      cases held with
      | nil => rfl
      | cons a l => simp at hh; simp [hh]
    cases pv
    · simp [run, ht]
    · by_cases h1 : ok (i + 1) <;> by_cases h2 : ok (i + 1 + 1) <;> simp [run, ht, h1, h2]
  unfold fileOps
  rw [List.append_assoc, List.append_assoc]
  simp only [List.cons_append, List.nil_append, run]
  by_cases h1 : ok i
  · by_cases h2 : ok (i + 1)
    · by_cases h3 : ok (i + 1 + 1)
      · simp only [h1, h2, h3, if_true]
        rw [run_append, run_mays]
        split
        · exact tail _ _ (by simp)
        · rename_i hf
          constructor
          · intro h; exact absurd h hf
          · rw [run_mays]; simp
      · simp [h1, h2, h3]
    · simp [h1, h2]
  · simp [h1]

theorem run_files (ok : Nat → Bool) (prov : String) (pv : Bool) (files : List (String × Nat)) (i : Nat) :
    ((run ok i (files.flatMap fun f => fileOps f.1 prov f.2 pv) []).1 = true →
      (run ok i (files.flatMap fun f => fileOps f.1 prov f.2 pv) []).2 = []) ∧
    (run ok i (files.flatMap fun f => fileOps f.1 prov f.2 pv) []).2.length ≤ 1 := by
  induction files generalizing i with
  | nil => simp [run]
  | cons f files ih =>
    rw [List.flatMap_cons, run_append]
    have hf := run_file ok f.1 prov f.2 pv i
    split
    · rename_i h
      rw [hf.1 h]
      exact ih _
    · rename_i h
      exact ⟨fun h' => absurd h' h, hf.2⟩

/-- C28 (partial): when the brick was written successfully, no lock is left; in case of failure at
most one lock is left. This holds whichever steps fail. Missing: failure under a lock, see
`c28_lock_leak_violated`. -/
theorem c28_no_lock_left_partial (ok : Nat → Bool) (pre : Nat) (dir prov : String)
    (files : List (String × Nat)) (pv : Bool) :
    ((run ok 0 (writeBrickOps pre dir prov files pv) []).1 = true →
      (run ok 0 (writeBrickOps pre dir prov files pv) []).2 = []) ∧
    (run ok 0 (writeBrickOps pre dir prov files pv) []).2.length ≤ 1 := by
  unfold writeBrickOps
  rw [List.append_assoc, run_append, run_mays]
  split
  · simp only [List.cons_append, List.nil_append, run]
    split
    · split
      · exact run_files ok prov pv files _
      · simp
    · simp
  · rename_i h
    refine ⟨fun h' => absurd h' h, ?_⟩
    rw [run_mays]; simp

/-- C28 (partial): a failure before the first output file is locked leaves no lock. -/
theorem c28_early_failure_partial (ok : Nat → Bool) (pre i : Nat) (dir prov : String)
    (files : List (String × Nat)) (pv : Bool) (hi : i < pre + 5) (hu : i ≠ pre + 1)
    (hfail : ok i = false) (hok : ∀ j < i, ok j = true) (hne : files ≠ []) :
    run ok 0 (writeBrickOps pre dir prov files pv) [] = (false, []) := by
  have mays : ∀ k s, (∀ j < k, ok (s + j) = true) →
      run ok s (List.replicate k .may) [] = (true, []) := by
    intro k
    induction k with
    | zero => intros; rfl
    | succ k ih =>
      intro s h
      rw [List.replicate_succ]
      have h0 := h 0 (by omega)
      simp only [Nat.add_zero] at h0
      simp only [run, h0, if_true]
      apply ih
      intro j hj
      have := h (j + 1) (by omega)
      rwa [show s + 1 + j = s + (j + 1) by omega]
  have maysF : ∀ k s, (∃ j < k, ok (s + j) = false) →
      (run ok s (List.replicate k .may) []).1 = false := by
    intro k
    induction k with
    | zero => rintro s ⟨j, hj, _⟩; omega
    | succ k ih =>
      rintro s ⟨j, hj, h⟩
      rw [List.replicate_succ]
      simp only [run]
      split
      · rename_i h0
        apply ih
        cases j with
        | zero => simp only [Nat.add_zero] at h; rw [h] at h0; simp at h0
        | succ j => exact ⟨j, by omega, by rwa [show s + 1 + j = s + (j + 1) by omega]⟩
      · rfl
  unfold writeBrickOps
  rw [List.append_assoc, run_append]
  rcases Nat.lt_or_ge i pre with h | h
  · have hF := maysF pre 0 ⟨i, h, by simpa using hfail⟩
    rw [if_neg (by rw [hF]; simp)]
    exact Prod.ext hF (run_mays ok pre 0 [])
  · have hT := mays pre 0 fun j hj => by simpa using hok j (by omega)
    rw [hT]
    simp only [if_true, List.length_replicate, Nat.zero_add, List.cons_append, List.nil_append, run]
    obtain ⟨f, fs, rfl⟩ : ∃ f fs, files = f :: fs := by
      cases files with
      | nil => exact absurd rfl hne
      | cons f fs => exact ⟨f, fs, rfl⟩
    rw [List.flatMap_cons]
    unfold fileOps
    simp only [List.cons_append, List.append_assoc, run]
    have cases5 : i = pre ∨ i = pre + 2 ∨ i = pre + 3 ∨ i = pre + 4 := by omega
    rcases cases5 with rfl | rfl | rfl | rfl
    · simp [hfail]
    · rw [if_pos (hok _ (by omega))]
      simp [hfail, Nat.add_assoc]
    · rw [if_pos (hok _ (by omega))]
      have := hok (pre + 2) (by omega)
      simp [hfail, this, Nat.add_assoc]
    · rw [if_pos (hok _ (by omega))]
      have h2 := hok (pre + 2) (by omega)
      have h3 := hok (pre + 3) (by omega)
      simp [hfail, h2, h3, Nat.add_assoc]

example : run (fun i => decide (i ≠ 3)) 0 (writeBrickOps 3 "dir" "prov" [("a", 2)] true) [] = (false, []) := by
  decide

/-- C28 does not hold: any of the operations that can fail while the output file is locked leaves
the lock behind. -/
theorem c28_lock_leak_violated (ok : Nat → Bool) (pre m : Nat) (dir prov name : String) (k : Nat)
    (files : List (String × Nat)) (pv : Bool) (hm : m < k)
    (hfail : ok (pre + 6 + m) = false) (hok : ∀ j < pre + 6 + m, ok j = true) :
    run ok 0 (writeBrickOps pre dir prov ((name, k) :: files) pv) [] = (false, [name]) := by
  have mays : ∀ n s held, (∀ j < n, ok (s + j) = true) → ∀ rest,
      run ok s (List.replicate n .may ++ rest) held = run ok (s + n) rest held := by
    intro n
    induction n with
    | zero => intros; rfl
    | succ n ih =>
      intro s held h rest
      have h0 := h 0 (by omega)
      simp only [Nat.add_zero] at h0
      rw [List.replicate_succ, List.cons_append]
      simp only [run, h0, if_true]
      rw [ih (s + 1) held (fun j hj => by
        have := h (j + 1) (by omega)
        rwa [show s + 1 + j = s + (j + 1) by omega]), show s + 1 + n = s + (n + 1) by omega]
  unfold writeBrickOps
  rw [List.append_assoc, mays pre 0 [] (fun j hj => by simpa using hok j (by omega))]
  rw [List.flatMap_cons]
  unfold fileOps
  obtain ⟨n, rfl⟩ : ∃ n, k = m + (n + 1) := ⟨k - m - 1, by omega⟩
  rw [List.replicate_add, List.replicate_succ]
  simp only [List.cons_append, List.nil_append, List.append_assoc, run, Nat.zero_add]
  rw [if_pos (hok _ (by omega)), if_pos (hok _ (by omega)), if_pos (hok _ (by omega)),
    if_pos (hok _ (by omega)), if_pos (hok _ (by omega)),
    List.tail_cons, mays m (pre + 1 + 1 + 1 + 1 + 1 + 1) [name] (fun j hj => hok _ (by omega))]
  simp only [run]
  rw [if_neg]
  rw [show pre + 1 + 1 + 1 + 1 + 1 + 1 + m = pre + 6 + m by omega, hfail]
  simp

example : run (fun i => decide (i ≠ 8)) 0 (writeBrickOps 1 "dir" "prov" [("a", 2)] true) [] = (false, ["a"]) := by
  decide

/-! ## C47 -/

open Verif.Float

/-- C47, exact arithmetic: the row and column of a pixel converted to an image of another
resolution that covers the same area are inside of this image, and spatially contain the
upper-left corner of the source pixel. -/
theorem c47_contains_exact (src dst : Grid) (h : SameExtent src dst) (hs : 0 < src.res)
    (hd : 0 < dst.res) (i j : ℤ) (hi : 0 ≤ i ∧ i < src.ny) (hj : 0 ≤ j ∧ j < src.nx) :
    let q := ji2ji id src dst i j
    (0 ≤ q.1 ∧ q.1 < dst.ny) ∧ (0 ≤ q.2 ∧ q.2 < dst.nx) ∧
      Contains dst.res q.1 q.2 (i * src.res) (j * src.res) := by
  have key : ∀ (i n m : ℤ), 0 ≤ i → i < n → (n : ℚ) * src.res = m * dst.res →
      (0 ≤ scale id src dst i ∧ scale id src dst i < m) ∧
      ((scale id src dst i : ℚ) * dst.res ≤ i * src.res ∧
        (i : ℚ) * src.res < (scale id src dst i + 1) * dst.res) := by
    intro i n m h0 hn he
    unfold scale
    simp only [id]
    have a0 : (0 : ℚ) ≤ (i : ℚ) * src.res / dst.res :=
      div_nonneg (mul_nonneg (by exact_mod_cast h0) hs.le) hd.le
    have a1 : (i : ℚ) * src.res / dst.res < m := by
      rw [div_lt_iff₀ hd, ← he]
      exact mul_lt_mul_of_pos_right (by exact_mod_cast hn) hs
    refine ⟨⟨Int.floor_nonneg.2 a0, Int.floor_lt.2 a1⟩, ?_, ?_⟩
    · rw [← le_div_iff₀ hd]; exact Int.floor_le _
    · rw [← div_lt_iff₀ hd]; exact Int.lt_floor_add_one _
  have k1 := key i src.ny dst.ny hi.1 hi.2 h.2
  have k2 := key j src.nx dst.nx hj.1 hj.2 h.1
  exact ⟨k1.1, k2.1, k1.2.1, k1.2.2, k2.2.1, k2.2.2⟩

/-- In double precision the conversion is exact for resolutions that are multiples of a common
power of two (integer meters, halves, ...). -/
theorem scale_exact (rd : ℚ → ℚ) (hrd : ∀ x, Nearest 53 x (rd x)) (src dst : Grid) (a b e : ℤ)
    (hsr : src.res = a * (2 : ℚ) ^ e) (hdr : dst.res = b * (2 : ℚ) ^ e) (ha : 0 < a) (hb : 0 < b)
    (hbp : b ≤ 2 ^ 53) (i : ℤ) (hi : 0 ≤ i) (hip : i * a < 2 ^ 53) :
    scale rd src dst i = scale id src dst i := by
  have nn : 0 ≤ i * a := Int.mul_nonneg hi ha.le
  have r1 : rd ((i : ℚ) * src.res) = ((i * a : ℤ) : ℚ) * (2 : ℚ) ^ e := by
    have e1 : (i : ℚ) * src.res = ((i * a : ℤ) : ℚ) * (2 : ℚ) ^ e := by
      rw [hsr]; push_cast; ring
    rw [e1]
    exact eq_of_nearest_rep ⟨i * a, e, by rw [abs_of_nonneg nn]; omega, rfl⟩ (hrd _)
  have pe : ((2 : ℚ) ^ e) ≠ 0 := by positivity
  have q1 : ((i * a : ℤ) : ℚ) * (2 : ℚ) ^ e / dst.res = ((i * a : ℤ) : ℚ) / (b : ℚ) := by
    rw [hdr, mul_div_mul_right _ _ pe]
  unfold scale
  rw [r1, q1]
  have := divFloor_exact (p := 53) (a := i * a) (b := b) (t := ⌊rd (((i * a : ℤ) : ℚ) / (b : ℚ))⌋) nn hb hip hbp
    ⟨((i * a : ℤ) : ℚ), (b : ℚ), _, nearest_of_rep (rep_int (by rw [abs_of_nonneg nn]; omega)),
      nearest_of_rep (rep_int (by rw [abs_of_pos hb]; omega)), hrd _, rfl⟩
  rw [this]
  simp only [id]
  have q2 : (i : ℚ) * src.res / dst.res = ((i * a : ℤ) : ℚ) / (b : ℚ) := by
    rw [hsr, ← mul_assoc, ← q1]; push_cast; rfl
  rw [q2]
  symm
  have hb' : (0 : ℚ) < b := by exact_mod_cast hb
  rw [Int.floor_eq_iff, le_div_iff₀ hb', div_lt_iff₀ hb']
  constructor
  · exact_mod_cast Int.ediv_mul_le (i * a) (by omega : b ≠ 0)
  · exact_mod_cast Int.lt_ediv_add_one_mul_self (i * a) hb

/-- C47 (partial): in double precision, for resolutions that are multiples of a common power of
two (e.g. whole or half meters), all conversion functions agree, and the target pixel is inside
of the target image and contains the upper-left corner of the source pixel.
Missing: other resolutions, see `c47_same_resolution_violated`. -/
theorem c47_conversion_partial (rd : ℚ → ℚ) (hrd : ∀ x, Nearest 53 x (rd x)) (src dst : Grid)
    (h : SameExtent src dst) (a b e : ℤ) (hsr : src.res = a * (2 : ℚ) ^ e)
    (hdr : dst.res = b * (2 : ℚ) ^ e) (ha : 0 < a) (hb : 0 < b) (hbp : b ≤ 2 ^ 53)
    (i j : ℤ) (hi : 0 ≤ i ∧ i < src.ny) (hj : 0 ≤ j ∧ j < src.nx) (hip : i * a < 2 ^ 53)
    (hjp : j * a < 2 ^ 53) :
    ∃ i' j', (0 ≤ i' ∧ i' < dst.ny) ∧ (0 ≤ j' ∧ j' < dst.nx) ∧
      Contains dst.res i' j' (i * src.res) (j * src.res) ∧
      ji2ji rd src dst i j = (i', j') ∧ ji2p rd src dst i j = i' * dst.nx + j' ∧
      ji2jip rd src dst i j = (i', j', i' * dst.nx + j') ∧
      p2ji rd src dst (i * src.nx + j) = (i', j') ∧
      p2p rd src dst (i * src.nx + j) = i' * dst.nx + j' ∧
      p2jip rd src dst (i * src.nx + j) = (i', j', i' * dst.nx + j') ∧
      (0 ≤ i' * dst.nx + j' ∧ i' * dst.nx + j' < dst.nx * dst.ny) := by
  have pe : (0 : ℚ) < (2 : ℚ) ^ e := by positivity
  have hs : 0 < src.res := by rw [hsr]; exact mul_pos (by exact_mod_cast ha) pe
  have hd : 0 < dst.res := by rw [hdr]; exact mul_pos (by exact_mod_cast hb) pe
  obtain ⟨k1, k2, k3⟩ := c47_contains_exact src dst h hs hd i j hi hj
  simp only [ji2ji] at k1 k2 k3
  have ei := scale_exact rd hrd src dst a b e hsr hdr ha hb hbp i hi.1 hip
  have ej := scale_exact rd hrd src dst a b e hsr hdr ha hb hbp j hj.1 hjp
  have pos : 0 < src.nx := by omega
  have hdiv : Int.tdiv (i * src.nx + j) src.nx = i := by
    have nn : 0 ≤ i * src.nx := Int.mul_nonneg hi.1 pos.le
    rw [Int.tdiv_eq_ediv_of_nonneg (by omega), Int.add_comm, Int.add_mul_ediv_right _ _ (by omega),
      Int.ediv_eq_zero_of_lt hj.1 hj.2, Int.zero_add]
  have hrem : i * src.nx + j - i * src.nx = j := by omega
  refine ⟨scale id src dst i, scale id src dst j, k1, k2, k3, ?_, ?_, ?_, ?_, ?_, ?_, ?_, ?_⟩
  · simp only [ji2ji, ei, ej]
  · simp only [ji2p, ei, ej]
  · simp only [ji2jip, ei, ej]
  · simp only [p2ji, hdiv, hrem, ei, ej]
  · simp only [p2p, hdiv, hrem, ei, ej]
  · simp only [p2jip, hdiv, hrem, ei, ej]
  · have : 0 ≤ scale id src dst i * dst.nx := Int.mul_nonneg k1.1 (by omega)
    omega
  · have : (scale id src dst i + 1) * dst.nx ≤ dst.ny * dst.nx :=
      Int.mul_le_mul_of_nonneg_right (by omega) (by omega)
    rw [Int.mul_comm dst.nx dst.ny]
    have e' : (scale id src dst i + 1) * dst.nx = scale id src dst i * dst.nx + dst.nx := by ring
    omega

example : SameExtent ⟨3000, 3000, 10⟩ ⟨1000, 1000, 30⟩ ∧ (10 : ℚ) = (5 : ℤ) * (2 : ℚ) ^ (1 : ℤ) ∧
    (30 : ℚ) = (15 : ℤ) * (2 : ℚ) ^ (1 : ℤ) := by
  unfold SameExtent; norm_num

/-- The hypothesis on the rounding function can be met. -/
example : ∃ rd : ℚ → ℚ, ∀ x, Nearest 53 x (rd x) := exists_round 53 (by norm_num)

example : ji2p id ⟨3000, 3000, 10⟩ ⟨1000, 1000, 30⟩ 2999 5 = 999 * 1000 + 1 := by
  unfold ji2p scale; norm_num

/-- The `double` nearest to 0.1. -/
def tenth : ℚ := 3602879701896397 * (2 : ℚ) ^ (-55 : ℤ)

/-- C47 does not hold for all resolutions: with a resolution of 0.1 (as stored in double
precision), row 43 converted to an image of the same resolution is row 42, with every way to
break rounding ties. -/
theorem c47_same_resolution_violated (rd : ℚ → ℚ) (hrd : ∀ x, Nearest 53 x (rd x)) (nx ny : ℤ) :
    Nearest 53 (1 / 10) tenth ∧ scale rd ⟨nx, ny, tenth⟩ ⟨nx, ny, tenth⟩ 43 = 42 := by
  refine ⟨?_, ?_⟩
  · have := hrd (1 / 10)
    have e : rd (1 / 10) = ((7205759403792794 : ℤ) : ℚ) * (2 : ℚ) ^ (-56 : ℤ) :=
      nearest_unique (by norm_num) (by norm_num) (by norm_num [abs_lt, zpow_neg])
        ⟨7205759403792794, -56, by norm_num, by norm_num⟩ this
    rw [e] at this
    convert this using 1
    unfold tenth
    norm_num
  · have e1 : rd (43 * tenth) = ((4841369599423283 : ℤ) : ℚ) * (2 : ℚ) ^ (-50 : ℤ) :=
      nearest_unique (by norm_num) (by norm_num) (by unfold tenth; norm_num [abs_lt, zpow_neg])
        ⟨4841369599423283, -50, by norm_num, by norm_num⟩ (hrd _)
    have e2 : rd (((4841369599423283 : ℤ) : ℚ) * (2 : ℚ) ^ (-50 : ℤ) / tenth) =
        ((6051711999279103 : ℤ) : ℚ) * (2 : ℚ) ^ (-47 : ℤ) :=
      nearest_unique (by norm_num) (by norm_num) (by unfold tenth; norm_num [abs_lt, zpow_neg])
        ⟨6051711999279103, -47, by norm_num, by norm_num⟩ (hrd _)
    unfold scale
    simp only [Int.cast_ofNat]
    rw [e1, e2, Int.floor_eq_iff]
    norm_num [zpow_neg]

end Verif.Brick
